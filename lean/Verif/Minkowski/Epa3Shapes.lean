import Verif.Minkowski.Epa3Exact
import Verif.Minkowski.Complex3
/-!
# The 3D penetration depth is exact (C79)
-/
namespace Verif.Minkowski
open Verif Geom Primitive
set_option linter.unusedSectionVars false
noncomputable section

/-! ## The corners of the simplex are support points -/

theorem checkSide_mem {K : Type} [Field K] [LinearOrder K] [IsStrictOrderedRing K] (abc ab ac ao : V3 K) (s0 s1 s2 : SP (V3 K)) (above ig : Bool) :
    ∀ p ∈ (checkSide abc ab ac ao s0 s1 s2 above ig).1, p ∈ [s0, s1, s2] := by
  intro p hp
  unfold checkSide at hp
  dsimp only at hp
  split at hp
  · simp at hp ⊢; tauto
  · split at hp
    · simp at hp ⊢; tauto
    · split at hp
      · simp at hp ⊢; tauto
      · simp at hp ⊢; tauto

theorem reduce3_mem {K : Type} [Field K] [LinearOrder K] [IsStrictOrderedRing K] (s : List (SP (V3 K))) (v : V3 K) : ∀ p ∈ (reduce3 s v).2.1, p ∈ s := by
  intro p hp
  unfold reduce3 at hp
  split at hp
  · dsimp only at hp
    split at hp
    · have := checkSide_mem _ _ _ _ _ _ _ _ _ p hp; simp at this ⊢; tauto
    · split at hp
      · have := checkSide_mem _ _ _ _ _ _ _ _ _ p hp; simp at this ⊢; tauto
      · split at hp
        · simp at hp ⊢; tauto
        · exact hp
  · exact checkSide_mem _ _ _ _ _ _ _ _ _ p hp
  · exact hp
  · exact hp

theorem gjkLoop_mem {left right : V3 ℝ → Res (V3 ℝ)} {Q : SP (V3 ℝ) → Prop} (hQ : ∀ d p, SP.fromMinkowski left right d = .ok p → Q p) :
    ∀ n s d x, (∀ p ∈ s, Q p) → gjkLoop reduce3 left right n s d = .ok (.hit x) → ∀ p ∈ x, Q p := by
  intro n
  induction n with
  | zero => intro s d x _ h; unfold gjkLoop at h; cases h
  | succ n ih =>
    intro s d x hs h
    unfold gjkLoop at h
    rw [Res.bind_eq_ok] at h
    obtain ⟨a, ha, h⟩ := h
    have hm : ∀ p ∈ (reduce3 (s ++ [a]) d).2.1, Q p := by
      intro p hp
      rcases List.mem_append.1 (reduce3_mem _ _ p hp) with h | h
      · exact hs p h
      · rw [List.mem_singleton.1 h]; exact hQ _ _ ha
    split at h
    · cases h
    · dsimp only at h
      split at h
      · cases h; exact hm
      · exact ih _ _ _ hm h

theorem gjkIntersect_mem {left right : V3 ℝ → Res (V3 ℝ)} {n : Nat} {lp rp : V3 ℝ} {x : List (SP (V3 ℝ))} (h : gjkIntersect reduce3 n left right lp rp = .ok (some x)) :
    ∀ p ∈ x, ∃ d, SP.fromMinkowski left right d = .ok p := by
  unfold gjkIntersect at h
  rw [Res.bind_eq_ok] at h
  obtain ⟨o, ho, h⟩ := h
  cases o with
  | miss => cases h
  | exhausted => cases h
  | hit s =>
    cases h
    unfold gjkRun at ho
    rw [Res.bind_eq_ok] at ho
    obtain ⟨a, ha, ho⟩ := ho
    split at ho
    · cases ho
    · refine gjkLoop_mem (fun d p hp => ⟨d, hp⟩) _ _ _ _ ?_ ho
      intro p hp
      rw [List.mem_singleton.1 hp]
      exact ⟨_, ha⟩

theorem gjkIntersect_hit {left right : V3 ℝ → Res (V3 ℝ)} {n : Nat} {lp rp : V3 ℝ} {x : List (SP (V3 ℝ))} (h : gjkIntersect reduce3 n left right lp rp = .ok (some x)) :
    gjkRun reduce3 n left right lp rp = .ok (.hit x) := by
  unfold gjkIntersect at h
  rw [Res.bind_eq_ok] at h
  obtain ⟨o, ho, h⟩ := h
  cases o with
  | miss => cases h
  | exhausted => cases h
  | hit s => cases h; exact ho

/-- What C79 says of a contact `k` for the shapes `L` and `R`: a unit normal; the shapes cannot be separated by a translation of the right shape of length at most the depth; and if the
tolerance test ended the expansion, the translation along the normal longer than the depth by the tolerance separates them. -/
def ExactContact (L R : V3 ℝ → Prop) (tolerance : ℝ) (k : Contact (V3 ℝ) ℝ) (converged : Bool) : Prop :=
  k.normal.norm = 1 ∧ 0 ≤ k.depth ∧ (∀ z : V3 ℝ, z.norm ≤ k.depth → ∃ x y, L x ∧ R y ∧ x = y + z) ∧
    (converged = true → ∀ x y, L x → R y → x.dot k.normal < (y + k.normal * (k.depth + tolerance)).dot k.normal)

/-- C79. Convex shapes with support functions that answer for every direction; any iteration limits: if GJK returns a simplex, EPA returns a contact (no panic, no NaN), exact up to the
tolerance. If the shapes have finitely many support points, `F` and `G`, and `|F| |G| - 3` iterations are allowed, the tolerance test ends the expansion. -/
theorem c79_3d (L R : V3 ℝ → Prop) (hL : Convex3 L) (hR : Convex3 R) {left right : V3 ℝ → Res (V3 ℝ)} (hl : SupportFn3 left L) (hr : SupportFn3 right R)
    (hl0 : PointsOf3 left L) (hr0 : PointsOf3 right R) (tolerance : ℝ) (n m : Nat) (lp rp : V3 ℝ) {simplex : List (SP (V3 ℝ))}
    (h : gjkIntersect reduce3 n left right lp rp = .ok (some simplex)) :
    ∃ k converged, epa3 tolerance m left right simplex = .ok (some (.contact k converged)) ∧ ExactContact L R tolerance k converged ∧
      (0 < tolerance → ∀ F G, FiniteSupport3 left F → FiniteSupport3 right G → F.length * G.length ≤ m + 3 → converged = true) := by
  obtain ⟨o, h1, -, h3⟩ := gjk3_runA hl0 hr0 n lp rp
  rw [gjkIntersect_hit h] at h1
  cases h1
  obtain ⟨k, cv, e1, e2, e3, e4, e5, e6⟩ := epa3_exact hL hR hl hr tolerance m (h3 _ rfl)
  refine ⟨k, cv, e1, ⟨e2, e3, e4, e5⟩, fun ht F G hF hG hlen => e6 ht F G hF hG ?_ hlen⟩
  intro p hp
  obtain ⟨d, hd⟩ := gjkIntersect_mem h p hp
  unfold SP.fromMinkowski at hd
  rw [Res.bind_eq_ok] at hd
  obtain ⟨x, hx, hd⟩ := hd
  rw [Res.bind_eq_ok] at hd
  obtain ⟨y, hy, hd⟩ := hd
  cases hd
  exact List.mem_flatMap.2 ⟨x, hF _ _ hx, List.mem_map.2 ⟨y, hG _ _ hy, rfl⟩⟩

/-- C79 for shapes whose support is not defined in direction zero (spheres, capsules): when the first two support points are not in line with the origin. -/
theorem c79_3d_round (L R : V3 ℝ → Prop) (hL : Convex3 L) (hR : Convex3 R) {left right : V3 ℝ → Res (V3 ℝ)} (hl : SupportFn3 left L) (hr : SupportFn3 right R)
    (tolerance : ℝ) (n m : Nat) (lp rp : V3 ℝ)
    (hcol : ∀ p q, SP.fromMinkowski left right (firstDirection lp rp) = .ok p → SP.fromMinkowski left right (-firstDirection lp rp) = .ok q → p.v.cross q.v ≠ 0)
    {simplex : List (SP (V3 ℝ))} (h : gjkIntersect reduce3 n left right lp rp = .ok (some simplex)) :
    ∃ k converged, epa3 tolerance m left right simplex = .ok (some (.contact k converged)) ∧ ExactContact L R tolerance k converged := by
  obtain ⟨o, h1, -, h3⟩ := gjk3_run hl hr n lp rp hcol
  rw [gjkIntersect_hit h] at h1
  cases h1
  obtain ⟨k, cv, e1, e2, e3, e4, e5, -⟩ := epa3_exact hL hR hl hr tolerance m (h3 _ rfl)
  exact ⟨k, cv, e1, e2, e3, e4, e5⟩

/-! ## Primitives -/

/-- The vertices of the 3D primitives with flat sides. -/
def Prim3.verts : Prim3 → List (V3 ℝ)
  | .particle => [0]
  | .quad s => s.corners
  | .cuboid s => s.corners
  | .cube s => s.cuboid.corners
  | .polyhedron s => s.positions
  | _ => []
/-- Primitives with vertices. -/
def Polytope3 : Prim3 → Prop
  | .sphere _ => False
  | .capsule _ => False
  | .cylinder _ => False
  | _ => True

theorem support_finite3 (D : Dec3 ℝ) (loc : V3 ℝ → V3 ℝ) (vs : List (V3 ℝ)) (h : ∀ e, loc e ∈ vs) : FiniteSupport3 (support loc D.tr) (vs.map D.tr.point) := by
  intro d p hp
  unfold support at hp
  rw [Res.bind_eq_ok] at hp
  obtain ⟨e, -, he⟩ := hp
  cases he
  exact List.mem_map.2 ⟨_, h e, rfl⟩

theorem prim3_finite (s : Prim3) (hs : s.Ok) (hp : Polytope3 s) (nz : V3 ℝ → Bool) (D : Dec3 ℝ) : FiniteSupport3 (s.supportPoint nz D.tr) ((Prim3.verts s).map D.tr.point) := by
  cases s with
  | sphere => exact hp.elim
  | capsule => exact hp.elim
  | cylinder => exact hp.elim
  | particle =>
    intro d p h
    have h : Res.ok (D.tr.point 0) = Res.ok p := h
    cases h
    simp [Prim3.verts]
  | quad s =>
    obtain ⟨w, h, hw, hh, rfl⟩ := hs
    exact support_finite3 D _ _ fun e => (maxPoint3_spec _ e (by simp [Prim3.verts, Quad.new, Quad.newImpl, Quad.generateCorners])).1
  | cuboid s =>
    obtain ⟨w, h, l, hw, hh, hl, rfl⟩ := hs
    exact support_finite3 D _ _ fun e => (maxPoint3_spec _ e (by simp [Prim3.verts, Cuboid.new, Cuboid.newImpl, Cuboid.generateCorners])).1
  | cube s =>
    obtain ⟨w, hw, rfl⟩ := hs
    exact support_finite3 D _ _ fun e => (maxPoint3_spec _ e (by simp [Prim3.verts, Cube.new, Cuboid.new, Cuboid.newImpl, Cuboid.generateCorners])).1
  | polyhedron s =>
    intro d p h
    have h : s.supportPoint D.tr d = .ok p := h
    unfold Polyhedron.supportPoint at h
    split at h
    · rw [Res.bind_eq_ok] at h
      obtain ⟨e, -, h⟩ := h
      rw [Res.bind_eq_ok] at h
      obtain ⟨q, hq, h⟩ := h
      cases h
      unfold hillClimb at hq
      rw [Res.bind_eq_ok] at hq
      obtain ⟨v0, -, hq⟩ := hq
      rw [Res.bind_eq_ok] at hq
      obtain ⟨b, -, hq⟩ := hq
      exact List.mem_map.2 ⟨q, List.mem_of_getElem? (get_ok hq), rfl⟩
    · rename_i hhe
      rcases hs with ⟨vs, hv, rfl⟩ | ⟨vs, fs, hc, he⟩
      · exact support_finite3 D _ _ (fun e => (maxPoint3_spec _ e hv).1) d p h
      · obtain ⟨P, p1, p2, -⟩ := newWithFaces_ok hc.tri hc.oriented hc.normals
        rw [he] at p1
        cases p1
        exact absurd p2 hhe

/-- C79 for 3D primitives without rounded parts (particles, quads, cuboids, cubes, cylinders, convex polyhedra), any rotations, translations, non-zero scales. -/
theorem c79_prim3 (s t : Prim3) (hs : s.Ok) (ht : t.Ok) (hsf : Flat3 s) (htf : Flat3 t) (nz nz' : V3 ℝ → Bool) (D E : Dec3 ℝ) (hD : D.rot.Orthogonal) (hE : E.rot.Orthogonal)
    (hDs : D.scale ≠ 0) (hEs : E.scale ≠ 0) (tolerance : ℝ) (n m : Nat) {simplex : List (SP (V3 ℝ))}
    (h : gjkIntersect reduce3 n (s.supportPoint nz D.tr) (t.supportPoint nz' E.tr) (D.tr.point 0) (E.tr.point 0) = .ok (some simplex)) :
    ∃ k converged, epa3 tolerance m (s.supportPoint nz D.tr) (t.supportPoint nz' E.tr) simplex = .ok (some (.contact k converged)) ∧
      ExactContact (Image D.tr s.Points) (Image E.tr t.Points) tolerance k converged ∧
      (0 < tolerance → Polytope3 s → Polytope3 t → (Prim3.verts s).length * (Prim3.verts t).length ≤ m + 3 → converged = true) := by
  obtain ⟨k, cv, h1, h2, h3⟩ := c79_3d _ _ (image_convex3 D (prim3_convex s)) (image_convex3 E (prim3_convex t)) (prim3_support s hs nz D hD hDs) (prim3_support t ht nz' E hE hEs)
    (prim3_points s hs hsf nz D hDs) (prim3_points t ht htf nz' E hEs) tolerance n m _ _ h
  refine ⟨k, cv, h1, h2, fun htol hps hpt hlen => h3 htol _ _ (prim3_finite s hs hps nz D) (prim3_finite t ht hpt nz' E) ?_⟩
  simpa using hlen

/-- C79 for boxes, as the library runs them (100 iterations of EPA): the depth of two overlapping cuboids is exact up to the tolerance. -/
theorem c79_cuboids {w h l w' h' l' : ℝ} (hw : 0 ≤ w) (hh : 0 ≤ h) (hl : 0 ≤ l) (hw' : 0 ≤ w') (hh' : 0 ≤ h') (hl' : 0 ≤ l') (D E : Dec3 ℝ) (hD : D.rot.Orthogonal) (hE : E.rot.Orthogonal)
    (hDs : D.scale ≠ 0) (hEs : E.scale ≠ 0) {tolerance : ℝ} (htol : 0 < tolerance) (n : Nat) {simplex : List (SP (V3 ℝ))}
    (hgjk : gjkIntersect reduce3 n ((Cuboid.new w h l).supportPoint D.tr) ((Cuboid.new w' h' l').supportPoint E.tr) (D.tr.point 0) (E.tr.point 0) = .ok (some simplex)) :
    ∃ k, epa3 tolerance 100 ((Cuboid.new w h l).supportPoint D.tr) ((Cuboid.new w' h' l').supportPoint E.tr) simplex = .ok (some (.contact k true)) ∧
      k.normal.norm = 1 ∧ 0 ≤ k.depth ∧
      (∀ z : V3 ℝ, z.norm ≤ k.depth → ∃ x y, Image D.tr (InBox w h l) x ∧ Image E.tr (InBox w' h' l') y ∧ x = y + z) ∧
      ∀ x y, Image D.tr (InBox w h l) x → Image E.tr (InBox w' h' l') y → x.dot k.normal < (y + k.normal * (k.depth + tolerance)).dot k.normal := by
  obtain ⟨k, cv, h1, ⟨h2, h3, h4, h5⟩, h6⟩ := c79_prim3 (.cuboid (Cuboid.new w h l)) (.cuboid (Cuboid.new w' h' l')) ⟨w, h, l, hw, hh, hl, rfl⟩ ⟨w', h', l', hw', hh', hl', rfl⟩ trivial trivial
    (fun _ => false) (fun _ => false) D E hD hE hDs hEs tolerance n 100 hgjk
  have hcv : cv = true := h6 htol trivial trivial (by simp [Prim3.verts, Cuboid.new, Cuboid.newImpl, Cuboid.generateCorners])
  subst hcv
  exact ⟨k, h1, h2, h3, h4, h5 rfl⟩

/-- C79 for any two primitives (also spheres and capsules), when the first two support points are not in line with the origin. -/
theorem c79_prim3_round (s t : Prim3) (hs : s.Ok) (ht : t.Ok) (nz nz' : V3 ℝ → Bool) (D E : Dec3 ℝ) (hD : D.rot.Orthogonal) (hE : E.rot.Orthogonal)
    (hDs : D.scale ≠ 0) (hEs : E.scale ≠ 0) (tolerance : ℝ) (n m : Nat)
    (hcol : ∀ p q, SP.fromMinkowski (s.supportPoint nz D.tr) (t.supportPoint nz' E.tr) (firstDirection (D.tr.point 0) (E.tr.point 0)) = .ok p →
      SP.fromMinkowski (s.supportPoint nz D.tr) (t.supportPoint nz' E.tr) (-firstDirection (D.tr.point 0) (E.tr.point 0)) = .ok q → p.v.cross q.v ≠ 0)
    {simplex : List (SP (V3 ℝ))}
    (h : gjkIntersect reduce3 n (s.supportPoint nz D.tr) (t.supportPoint nz' E.tr) (D.tr.point 0) (E.tr.point 0) = .ok (some simplex)) :
    ∃ k converged, epa3 tolerance m (s.supportPoint nz D.tr) (t.supportPoint nz' E.tr) simplex = .ok (some (.contact k converged)) ∧
      ExactContact (Image D.tr s.Points) (Image E.tr t.Points) tolerance k converged :=
  c79_3d_round _ _ (image_convex3 D (prim3_convex s)) (image_convex3 E (prim3_convex t)) (prim3_support s hs nz D hD hDs) (prim3_support t ht nz' E hE hEs) tolerance n m _ _ hcol h

/-- The translation by `(x, y, z)`. -/
def shift3 (x y z : ℝ) : Dec3 ℝ := ⟨1, ⟨⟨1, 0, 0⟩, ⟨0, 1, 0⟩, ⟨0, 0, 1⟩⟩, ⟨x, y, z⟩⟩
theorem shift3_orthogonal (x y z : ℝ) : (shift3 x y z).rot.Orthogonal := by
  refine ⟨⟨?_, ?_, ?_, ?_, ?_, ?_⟩, fun v => ?_⟩
  all_goals first | (simp [shift3, V3.dot]; done) | (ext <;> simp [shift3, M3.apply, M3.transpose, V3.dot])

/-- The hypotheses of `c79_cuboids` are met by two cubes of side 12 at offset (6, 3, 2): GJK returns a simplex. -/
theorem c79_example (n : Nat) : ∃ simplex, gjkIntersect reduce3 (n + 3) ((Cuboid.new (12 : ℝ) 12 12).supportPoint (shift3 0 0 0).tr) ((Cuboid.new (12 : ℝ) 12 12).supportPoint (shift3 6 3 2).tr)
    ((shift3 0 0 0).tr.point 0) ((shift3 6 3 2).tr.point 0) = .ok (some simplex) := by
  have l1 : ∀ d e, ∀ p q v, (Cuboid.new (12 : ℝ) 12 12).supportPoint (shift3 0 0 0).tr d = .ok p → (Cuboid.new (12 : ℝ) 12 12).supportPoint (shift3 6 3 2).tr e = .ok q → e = -d → v = p - q →
      SP.fromMinkowski ((Cuboid.new (12 : ℝ) 12 12).supportPoint (shift3 0 0 0).tr) ((Cuboid.new (12 : ℝ) 12 12).supportPoint (shift3 6 3 2).tr) d = .ok ⟨v, p, q⟩ := by
    rintro d e p q v h1 h2 rfl rfl
    unfold SP.fromMinkowski
    rw [h1, h2]; rfl
  have q0 := l1 ⟨6, 3, 2⟩ ⟨-6, -3, -2⟩ ⟨6, 6, 6⟩ ⟨0, -3, -4⟩ ⟨6, 9, 10⟩ (by
    norm_num [Cuboid.supportPoint, support, shift3, Dec3.tr, Cuboid.new, Cuboid.newImpl, Cuboid.generateCorners, maxPoint3, V3.dot, M3.apply, M3.transpose, V3.ext_iff]) (by
    norm_num [Cuboid.supportPoint, support, shift3, Dec3.tr, Cuboid.new, Cuboid.newImpl, Cuboid.generateCorners, maxPoint3, V3.dot, M3.apply, M3.transpose, V3.ext_iff]) (by ext <;> norm_num) (by ext <;> norm_num)
  have q1 := l1 ⟨-6, -3, -2⟩ ⟨6, 3, 2⟩ ⟨-6, -6, -6⟩ ⟨12, 9, 8⟩ ⟨-18, -15, -14⟩ (by
    norm_num [Cuboid.supportPoint, support, shift3, Dec3.tr, Cuboid.new, Cuboid.newImpl, Cuboid.generateCorners, maxPoint3, V3.dot, M3.apply, M3.transpose, V3.ext_iff]) (by
    norm_num [Cuboid.supportPoint, support, shift3, Dec3.tr, Cuboid.new, Cuboid.newImpl, Cuboid.generateCorners, maxPoint3, V3.dot, M3.apply, M3.transpose, V3.ext_iff]) (by ext <;> norm_num) (by ext <;> norm_num)
  have q2 := l1 ⟨4032, -1152, -2880⟩ ⟨-4032, 1152, 2880⟩ ⟨6, -6, -6⟩ ⟨0, 9, 8⟩ ⟨6, -15, -14⟩ (by
    norm_num [Cuboid.supportPoint, support, shift3, Dec3.tr, Cuboid.new, Cuboid.newImpl, Cuboid.generateCorners, maxPoint3, V3.dot, M3.apply, M3.transpose, V3.ext_iff]) (by
    norm_num [Cuboid.supportPoint, support, shift3, Dec3.tr, Cuboid.new, Cuboid.newImpl, Cuboid.generateCorners, maxPoint3, V3.dot, M3.apply, M3.transpose, V3.ext_iff]) (by ext <;> norm_num) (by ext <;> norm_num)
  have q3 := l1 ⟨0, 576, -576⟩ ⟨0, -576, 576⟩ ⟨6, 6, -6⟩ ⟨0, -3, 8⟩ ⟨6, 9, -14⟩ (by
    norm_num [Cuboid.supportPoint, support, shift3, Dec3.tr, Cuboid.new, Cuboid.newImpl, Cuboid.generateCorners, maxPoint3, V3.dot, M3.apply, M3.transpose, V3.ext_iff]) (by
    norm_num [Cuboid.supportPoint, support, shift3, Dec3.tr, Cuboid.new, Cuboid.newImpl, Cuboid.generateCorners, maxPoint3, V3.dot, M3.apply, M3.transpose, V3.ext_iff]) (by ext <;> norm_num) (by ext <;> norm_num)
  have hp0 : (shift3 0 0 0).tr.point 0 = ⟨0, 0, 0⟩ := by ext <;> simp [shift3, Dec3.tr, M3.apply]
  have hp1 : (shift3 6 3 2).tr.point 0 = ⟨6, 3, 2⟩ := by ext <;> simp [shift3, Dec3.tr, M3.apply]
  have hd : firstDirection (⟨0, 0, 0⟩ : V3 ℝ) ⟨6, 3, 2⟩ = ⟨6, 3, 2⟩ := by
    have e : (⟨6, 3, 2⟩ - ⟨0, 0, 0⟩ : V3 ℝ) = ⟨6, 3, 2⟩ := by ext <;> simp
    unfold firstDirection
    rw [e]
    dsimp only
    rw [if_neg]
    intro h; have := congrArg V3.x h; norm_num at this
  have hneg : (-⟨6, 3, 2⟩ : V3 ℝ) = ⟨-6, -3, -2⟩ := by ext <;> simp
  set A : SP (V3 ℝ) := ⟨⟨6, 9, 10⟩, ⟨6, 6, 6⟩, ⟨0, -3, -4⟩⟩ with hA
  set B : SP (V3 ℝ) := ⟨⟨-18, -15, -14⟩, ⟨-6, -6, -6⟩, ⟨12, 9, 8⟩⟩ with hB
  set C : SP (V3 ℝ) := ⟨⟨6, -15, -14⟩, ⟨6, -6, -6⟩, ⟨0, 9, 8⟩⟩ with hC
  set E : SP (V3 ℝ) := ⟨⟨6, 9, -14⟩, ⟨6, 6, -6⟩, ⟨0, -3, 8⟩⟩ with hE
  have r1 : ∀ d, reduce3 [A, B] d = (false, [A, B], ⟨4032, -1152, -2880⟩) := by
    intro d
    unfold reduce3
    dsimp only
    rw [if_neg]
    · congr 2
      ext <;> norm_num [crossAba, V3.cross, hA, hB]
    · intro h
      have := congrArg V3.x h
      norm_num [crossAba, V3.cross, hA, hB] at this
  have r2 : ∀ d, reduce3 [A, B, C] d = (false, [A, B, C], ⟨0, 576, -576⟩) := by
    intro d
    unfold reduce3 checkSide
    dsimp only
    rw [if_neg (by norm_num [V3.cross, V3.dot, hA, hB, hC]), if_neg (by norm_num [V3.cross, V3.dot, hA, hB, hC]), if_pos (by norm_num [V3.cross, V3.dot, hA, hB, hC])]
    congr 2
    ext <;> norm_num [V3.cross, hA, hB, hC]
  have r3 : ∀ d, reduce3 [A, B, C, E] d = (true, [A, B, C, E], d) := by
    intro d
    unfold reduce3
    dsimp only
    rw [if_neg (by norm_num [V3.cross, V3.dot, hA, hB, hC, hE]), if_neg (by norm_num [V3.cross, V3.dot, hA, hB, hC, hE]), if_neg (by norm_num [V3.cross, V3.dot, hA, hB, hC, hE])]
  refine ⟨[A, B, C, E], ?_⟩
  unfold gjkIntersect gjkRun
  rw [hp0, hp1, hd]
  dsimp only
  rw [q0, Res.bind_ok, if_neg (by simp only [hA, Inner.dot, V3.dot]; norm_num), hneg]
  unfold gjkLoop
  rw [q1, Res.bind_ok, if_neg (by simp only [hB, Inner.dot, V3.dot]; norm_num)]
  dsimp only [List.cons_append, List.nil_append]
  rw [r1, if_neg (by simp)]
  unfold gjkLoop
  rw [q2, Res.bind_ok, if_neg (by simp only [hC, Inner.dot, V3.dot]; norm_num)]
  dsimp only [List.cons_append, List.nil_append]
  rw [r2, if_neg (by simp)]
  unfold gjkLoop
  rw [q3, Res.bind_ok, if_neg (by simp only [hE, Inner.dot, V3.dot]; norm_num)]
  dsimp only [List.cons_append, List.nil_append]
  rw [r3, if_pos rfl]
  rfl
end
end Verif.Minkowski
