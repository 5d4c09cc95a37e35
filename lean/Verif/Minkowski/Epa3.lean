import Verif.Minkowski.Epa2Shapes
/-!
# EPA in 3D (C55)
-/
namespace Verif.Minkowski
open Verif Geom Primitive
set_option linter.unusedSectionVars false
noncomputable section

/-- The plane of a face: a unit normal, and the distance of the plane along it, through a vertex. -/
def FacePlane (vs : List (SP (V3 ℝ))) (f : EFace) : Prop :=
  ∀ n d, f.plane = some (n, d) → n.norm = 1 ∧ ∃ a, vs[f.vertices.1]? = some a ∧ d = n.dot a.v

theorem get_ok {α : Type} {o : Option α} {y : α} (h : Res.ofOption o = .ok y) : o = some y := by
  revert h; cases o <;> simp

theorem newImpl_plane {vs : List (SP (V3 ℝ))} {a b c : Nat} {f : EFace} (h : EFace.newImpl vs a b c = .ok f) : FacePlane vs f := by
  unfold EFace.newImpl at h
  rw [Res.bind_eq_ok] at h
  obtain ⟨sb, hb, h⟩ := h
  rw [Res.bind_eq_ok] at h
  obtain ⟨sa, ha, h⟩ := h
  rw [Res.bind_eq_ok] at h
  obtain ⟨sc, hc, h⟩ := h
  dsimp only at h
  intro n d hp
  split at h
  · cases h; cases hp
  · cases h
    cases hp
    exact ⟨V3.norm_normalize ‹_›, sa, get_ok ha, rfl⟩

theorem facePlane_append {vs : List (SP (V3 ℝ))} {f : EFace} (h : FacePlane vs f) (p : SP (V3 ℝ)) : FacePlane (vs ++ [p]) f := by
  intro n d hp
  obtain ⟨h1, a, h2, h3⟩ := h n d hp
  refine ⟨h1, a, ?_, h3⟩
  rw [List.getElem?_append_left]
  · exact h2
  · by_contra hc
    rw [List.getElem?_eq_none (by omega)] at h2
    cases h2

open Classical in
theorem closestFace_mem {fs : List EFace} {f : EFace} (h : closestFace fs = .ok f) : f ∈ fs := by
  cases fs with
  | nil => cases h
  | cons g gs =>
    have key : ∀ (l : List EFace) (x : EFace), l.foldl (fun face f => if f.closer face then f else face) x = x ∨
        l.foldl (fun face f => if f.closer face then f else face) x ∈ l := by
      intro l
      induction l with
      | nil => intro x; exact Or.inl rfl
      | cons y ys ih =>
        intro x
        simp only [List.foldl_cons, List.mem_cons]
        rcases ih (if y.closer x then y else x) with e | e
        · rw [e]
          split
          · exact Or.inr (Or.inl rfl)
          · exact Or.inl rfl
        · exact Or.inr (Or.inr e)
    cases h
    rcases key gs g with e | e
    · rw [e]; exact List.mem_cons_self
    · exact List.mem_cons_of_mem _ e

theorem addLoop_mem (vs : List (SP (V3 ℝ))) (p : V3 ℝ) : ∀ fuel faces i edges r, addLoop vs p fuel faces i edges = .ok r → ∀ f ∈ r.1, f ∈ faces := by
  intro fuel
  induction fuel with
  | zero =>
    intro faces i edges r h f hf
    unfold addLoop at h
    split at h
    · cases h
    · cases h; exact hf
  | succ n ih =>
    intro faces i edges r h f hf
    unfold addLoop at h
    split at h
    · cases h; exact hf
    · rename_i g hg
      rw [Res.bind_eq_ok] at h
      obtain ⟨v0, -, h⟩ := h
      dsimp only at h
      have main : ∀ g' : EFace, ∀ es, g' ∈ faces → addLoop vs p n (faces.set i (faces.getLast?.getD g')).dropLast i es = .ok r → f ∈ faces := by
        intro g' es hg' h
        have := ih _ _ _ _ h f hf
        have := List.mem_of_mem_dropLast this
        rcases List.mem_or_eq_of_mem_set this with e | e
        · exact e
        · rw [e]
          cases hl : faces.getLast? with
          | none => exact hg'
          | some y => exact List.mem_of_getLast? hl
      split at h
      · split at h
        · exact main _ _ (List.mem_of_getElem? hg) h
        · exact ih _ _ _ _ h f hf
      · rw [if_neg (fun h => h)] at h
        exact ih _ _ _ _ h f hf

theorem newFaces_mem (vs : List (SP (V3 ℝ))) (n : Nat) : ∀ es fs, newFaces vs n es = .ok fs → ∀ f ∈ fs, ∃ e ∈ es, EFace.newImpl vs n e.1 e.2 = .ok f := by
  intro es
  induction es with
  | nil => intro fs h f hf; cases h; cases hf
  | cons e es ih =>
    intro fs h f hf
    obtain ⟨a, b⟩ := e
    unfold newFaces at h
    rw [Res.bind_eq_ok] at h
    obtain ⟨g, hg, h⟩ := h
    rw [Res.bind_eq_ok] at h
    obtain ⟨gs, hgs, h⟩ := h
    cases h
    rcases List.mem_cons.mp hf with rfl | hf
    · exact ⟨(a, b), List.mem_cons_self, hg⟩
    · obtain ⟨e, he, h⟩ := ih gs hgs f hf
      exact ⟨e, List.mem_cons_of_mem _ he, h⟩

theorem newAll_mem {vs : List (SP (V3 ℝ))} {fs : List EFace} (h : EFace.newAll vs = .ok fs) : ∀ f ∈ fs, ∃ a b c, EFace.newImpl vs a b c = .ok f := by
  unfold EFace.newAll at h
  rw [Res.bind_eq_ok] at h
  obtain ⟨f0, h0, h⟩ := h
  rw [Res.bind_eq_ok] at h
  obtain ⟨f1, h1, h⟩ := h
  rw [Res.bind_eq_ok] at h
  obtain ⟨f2, h2, h⟩ := h
  rw [Res.bind_eq_ok] at h
  obtain ⟨f3, h3, h⟩ := h
  cases h
  intro f hf
  simp only [List.mem_cons, List.not_mem_nil, or_false] at hf
  rcases hf with rfl | rfl | rfl | rfl
  exacts [⟨_, _, _, h0⟩, ⟨_, _, _, h1⟩, ⟨_, _, _, h2⟩, ⟨_, _, _, h3⟩]

theorem polytopeAdd_plane {vs : List (SP (V3 ℝ))} {fs : List EFace} {p : SP (V3 ℝ)} {r : List (SP (V3 ℝ)) × List EFace} (h : polytopeAdd vs fs p = .ok r)
    (hf : ∀ f ∈ fs, FacePlane vs f) : r.1 = vs ++ [p] ∧ ∀ f ∈ r.2, FacePlane r.1 f := by
  unfold polytopeAdd at h
  rw [Res.bind_eq_ok] at h
  obtain ⟨q, hq, h⟩ := h
  dsimp only at h
  rw [Res.bind_eq_ok] at h
  obtain ⟨gs, hgs, h⟩ := h
  cases h
  refine ⟨rfl, fun f hfm => ?_⟩
  rcases List.mem_append.mp hfm with hfm | hfm
  · exact facePlane_append (hf f (addLoop_mem _ _ _ _ _ _ _ hq f hfm)) p
  · obtain ⟨e, -, he⟩ := newFaces_mem _ _ _ _ hgs f hfm
    exact newImpl_plane he

theorem epa3Loop_spec {L R : V3 ℝ → Prop} {left right : V3 ℝ → Res (V3 ℝ)} (hl : SupportFn3 left L) (hr : SupportFn3 right R) {tolerance : ℝ} :
    ∀ fuel vs fs c converged, (∀ f ∈ fs, FacePlane vs f) → epa3Loop tolerance left right fuel vs fs = .ok (.contact c converged) →
      c.normal.norm = 1 ∧ (converged = true → ∀ x, Mink3 L R x → x.dot c.normal < c.depth + tolerance) := by
  intro fuel
  induction fuel with
  | zero =>
    intro vs fs c cv hf h
    unfold epa3Loop at h
    rw [Res.bind_eq_ok] at h
    obtain ⟨f, hfm, h⟩ := h
    cases hp : f.plane with
    | none => rw [hp] at h; cases h
    | some nd =>
      obtain ⟨n, d⟩ := nd
      rw [hp] at h
      dsimp only at h
      obtain ⟨hn, -⟩ := hf f (closestFace_mem hfm) n d hp
      have hn0 : n ≠ 0 := by rintro rfl; rw [(V3.norm_eq_zero 0).mpr rfl] at hn; norm_num at hn
      obtain ⟨p, hp1, hp2, hp3⟩ := minkowski3 hl hr hn0
      rw [hp1, Res.bind_ok] at h
      split at h
      · rw [Res.bind_eq_ok] at h
        obtain ⟨q, -, h⟩ := h
        cases h
        refine ⟨hn, fun _ x hx => ?_⟩
        have := hp3 x hx
        dsimp only [Contact.newWithPoint]
        linarith
      · rw [Res.bind_eq_ok] at h
        obtain ⟨q, -, h⟩ := h
        cases h
        exact ⟨hn, nofun⟩
  | succ k ih =>
    intro vs fs c cv hf h
    unfold epa3Loop at h
    rw [Res.bind_eq_ok] at h
    obtain ⟨f, hfm, h⟩ := h
    cases hp : f.plane with
    | none => rw [hp] at h; cases h
    | some nd =>
      obtain ⟨n, d⟩ := nd
      rw [hp] at h
      dsimp only at h
      obtain ⟨hn, -⟩ := hf f (closestFace_mem hfm) n d hp
      have hn0 : n ≠ 0 := by rintro rfl; rw [(V3.norm_eq_zero 0).mpr rfl] at hn; norm_num at hn
      obtain ⟨p, hp1, hp2, hp3⟩ := minkowski3 hl hr hn0
      rw [hp1, Res.bind_ok] at h
      split at h
      · rw [Res.bind_eq_ok] at h
        obtain ⟨q, -, h⟩ := h
        cases h
        refine ⟨hn, fun _ x hx => ?_⟩
        have := hp3 x hx
        dsimp only [Contact.newWithPoint]
        linarith
      · rw [Res.bind_eq_ok] at h
        obtain ⟨r, hr', h⟩ := h
        exact ih _ _ _ _ (polytopeAdd_plane hr' hf).2 h

/-- C55, 3D: for any convex shapes (indeed any shapes given by support functions) and any starting simplex, a contact that EPA returns has a unit normal, and when the tolerance test
ended the expansion, moving the right shape by depth + tolerance along the normal separates the shapes. -/
theorem c55_3d (L R : V3 ℝ → Prop) {left right : V3 ℝ → Res (V3 ℝ)} (hl : SupportFn3 left L) (hr : SupportFn3 right R)
    (tolerance : ℝ) (maxIterations : Nat) {simplex : List (SP (V3 ℝ))} {c : Contact (V3 ℝ) ℝ} {converged : Bool}
    (h : epa3 tolerance maxIterations left right simplex = .ok (some (.contact c converged))) :
    c.normal.norm = 1 ∧ (converged = true → ∀ x y, L x → R y → x.dot c.normal < (y + c.normal * (c.depth + tolerance)).dot c.normal) := by
  unfold epa3 at h
  split at h
  · cases h
  · rw [Res.bind_eq_ok] at h
    obtain ⟨fs, hfs, h⟩ := h
    rw [Res.bind_eq_ok] at h
    obtain ⟨o, ho, h⟩ := h
    cases h
    obtain ⟨h1, h2⟩ := epa3Loop_spec hl hr _ _ _ _ _ (fun f hf => by
      obtain ⟨a, b, c, he⟩ := newAll_mem hfs f hf
      exact newImpl_plane he) ho
    refine ⟨h1, fun hc x y hx hy => ?_⟩
    have := h2 hc _ ⟨x, y, hx, hy, rfl⟩
    have hnn : c.normal.dot c.normal = 1 := by rw [← V3.norm_sq, h1]; norm_num
    rw [sub_dot3] at this
    have e2 : (y + c.normal * (c.depth + tolerance)).dot c.normal = y.dot c.normal + (c.depth + tolerance) * c.normal.dot c.normal := by
      simp only [V3.dot, V3.add_x, V3.add_y, V3.add_z, V3.mul_x, V3.mul_y, V3.mul_z]; ring
    rw [e2, hnn]
    linarith

/-- C55 for 3D primitives under similarity transforms. -/
theorem c55_prim3 (s t : Prim3) (hs : s.Ok) (ht : t.Ok) (nz nz' : V3 ℝ → Bool) (D E : Dec3 ℝ) (hD : D.rot.Orthogonal) (hE : E.rot.Orthogonal)
    (hDs : D.scale ≠ 0) (hEs : E.scale ≠ 0) (tolerance : ℝ) (maxIterations : Nat) {simplex : List (SP (V3 ℝ))} {c : Contact (V3 ℝ) ℝ} {converged : Bool}
    (h : epa3 tolerance maxIterations (s.supportPoint nz D.tr) (t.supportPoint nz' E.tr) simplex = .ok (some (.contact c converged))) :
    c.normal.norm = 1 ∧ (converged = true → ∀ x y, Image D.tr s.Points x → Image E.tr t.Points y →
      x.dot c.normal < (y + c.normal * (c.depth + tolerance)).dot c.normal) :=
  c55_3d _ _ (prim3_support s hs nz D hD hDs) (prim3_support t ht nz' E hE hEs) _ _ h

/-- `c55_3d` is not vacuous: a tetrahedron against a point inside; the nearest face is `x = -1`, at distance 1. -/
theorem c55_3d_example {tolerance : ℝ} (htol : 0 < tolerance) : ∃ (simplex : List (SP (V3 ℝ))) (c : Contact (V3 ℝ) ℝ),
    epa3 tolerance 100 (fun d => .ok (maxPoint3 [⟨-1, -1, -1⟩, ⟨-1, 5, -1⟩, ⟨5, -1, -1⟩, ⟨-1, -1, 5⟩] d)) (fun _ => .ok ⟨0, 0, 0⟩) simplex = .ok (some (.contact c true)) ∧
      c.depth = 1 ∧ c.normal = ⟨-1, 0, 0⟩ := by
  let P : V3 ℝ → SP (V3 ℝ) := fun v => ⟨v, v, ⟨0, 0, 0⟩⟩
  have nrm : ∀ x y z r : ℝ, 0 ≤ r → x * x + y * y + z * z = r ^ 2 → (⟨x, y, z⟩ : V3 ℝ).norm = r := by
    intro x y z r hr h
    rw [V3.norm, show (⟨x, y, z⟩ : V3 ℝ).dot ⟨x, y, z⟩ = r ^ 2 from h, Real.sqrt_sq hr]
  let vs : List (SP (V3 ℝ)) := [P ⟨-1, -1, -1⟩, P ⟨-1, 5, -1⟩, P ⟨5, -1, -1⟩, P ⟨-1, -1, 5⟩]
  have imp : ∀ a b c (x y z n : V3 ℝ) (d : ℝ), (vs[a]? = some (P x)) → (vs[b]? = some (P y)) → (vs[c]? = some (P z)) → (y - x).cross (z - x) ≠ 0 →
      ((y - x).cross (z - x)).normalize = n → n.dot x = d → EFace.newImpl vs a b c = .ok ⟨(a, b, c), some (n, d)⟩ := by
    intro a b c x y z n d ha hb hc h0 hn hd
    unfold EFace.newImpl
    rw [ha, hb, hc]
    show (if (y - x).cross (z - x) = 0 then _ else (pure _ : Res EFace)) = _
    rw [if_neg h0]
    show Res.ok (⟨(a, b, c), some (((y - x).cross (z - x)).normalize, ((y - x).cross (z - x)).normalize.dot x)⟩ : EFace) = _
    rw [hn, hd]
  have nz : ∀ x y z : ℝ, x + y + z ≠ 0 → (⟨x, y, z⟩ : V3 ℝ) ≠ 0 := by
    intro x y z h e
    have h1 := congrArg V3.x e
    have h2 := congrArg V3.y e
    have h3 := congrArg V3.z e
    simp at h1 h2 h3
    apply h; rw [h1, h2, h3]; norm_num
  have c0 : ((⟨5, -1, -1⟩ : V3 ℝ) - ⟨-1, -1, 5⟩).cross (⟨-1, 5, -1⟩ - ⟨-1, -1, 5⟩) = ⟨36, 36, 36⟩ := by ext <;> norm_num [V3.cross]
  have c1 : ((⟨-1, 5, -1⟩ : V3 ℝ) - ⟨-1, -1, 5⟩).cross (⟨-1, -1, -1⟩ - ⟨-1, -1, 5⟩) = ⟨-36, 0, 0⟩ := by ext <;> norm_num [V3.cross]
  have c2 : ((⟨-1, -1, -1⟩ : V3 ℝ) - ⟨-1, -1, 5⟩).cross (⟨5, -1, -1⟩ - ⟨-1, -1, 5⟩) = ⟨0, -36, 0⟩ := by ext <;> norm_num [V3.cross]
  have c3 : ((⟨-1, -1, -1⟩ : V3 ℝ) - ⟨5, -1, -1⟩).cross (⟨-1, 5, -1⟩ - ⟨5, -1, -1⟩) = ⟨0, 0, -36⟩ := by ext <;> norm_num [V3.cross]
  have f0 := imp 3 2 1 ⟨-1, -1, 5⟩ ⟨5, -1, -1⟩ ⟨-1, 5, -1⟩ _ _ rfl rfl rfl (by rw [c0]; apply nz; norm_num) rfl rfl
  have f1 := imp 3 1 0 ⟨-1, -1, 5⟩ ⟨-1, 5, -1⟩ ⟨-1, -1, -1⟩ ⟨-1, 0, 0⟩ 1 rfl rfl rfl (by rw [c1]; apply nz; norm_num)
    (by rw [c1]; unfold V3.normalize; rw [nrm _ _ _ 36 (by norm_num) (by norm_num)]; ext <;> norm_num) (by norm_num [V3.dot])
  have f2 := imp 3 0 2 ⟨-1, -1, 5⟩ ⟨-1, -1, -1⟩ ⟨5, -1, -1⟩ ⟨0, -1, 0⟩ 1 rfl rfl rfl (by rw [c2]; apply nz; norm_num)
    (by rw [c2]; unfold V3.normalize; rw [nrm _ _ _ 36 (by norm_num) (by norm_num)]; ext <;> norm_num) (by norm_num [V3.dot])
  have f3 := imp 2 0 1 ⟨5, -1, -1⟩ ⟨-1, -1, -1⟩ ⟨-1, 5, -1⟩ ⟨0, 0, -1⟩ 1 rfl rfl rfl (by rw [c3]; apply nz; norm_num)
    (by rw [c3]; unfold V3.normalize; rw [nrm _ _ _ 36 (by norm_num) (by norm_num)]; ext <;> norm_num) (by norm_num [V3.dot])
  rw [c0] at f0
  have hd0 : 1 < ((⟨36, 36, 36⟩ : V3 ℝ).normalize).dot ⟨-1, -1, 5⟩ := by
    have hpos : 0 < (⟨36, 36, 36⟩ : V3 ℝ).norm := V3.norm_pos (nz _ _ _ (by norm_num))
    have hle : (⟨36, 36, 36⟩ : V3 ℝ).norm ≤ 63 := (V3.norm_le_iff _ (by norm_num)).mpr (by norm_num [V3.dot])
    have e : ((⟨36, 36, 36⟩ : V3 ℝ).normalize).dot ⟨-1, -1, 5⟩ = 108 / (⟨36, 36, 36⟩ : V3 ℝ).norm := by
      simp only [V3.normalize, V3.dot, V3.mul_x, V3.mul_y, V3.mul_z]
      ring
    rw [e, lt_div_iff₀ hpos]
    linarith
  set N := (⟨36, 36, 36⟩ : V3 ℝ).normalize with hN
  clear_value N
  have hcl : closestFace [⟨(3, 2, 1), some (N, N.dot ⟨-1, -1, 5⟩)⟩, ⟨(3, 1, 0), some (⟨-1, 0, 0⟩, 1)⟩, ⟨(3, 0, 2), some (⟨0, -1, 0⟩, 1)⟩, ⟨(2, 0, 1), some (⟨0, 0, -1⟩, 1)⟩]
      = .ok ⟨(3, 1, 0), some (⟨-1, 0, 0⟩, 1)⟩ := by
    simp [closestFace, EFace.closer, hd0]
  have hsup : SP.fromMinkowski (fun d => .ok (maxPoint3 [⟨-1, -1, -1⟩, ⟨-1, 5, -1⟩, ⟨5, -1, -1⟩, ⟨-1, -1, 5⟩] d)) (fun _ => .ok ⟨0, 0, 0⟩) (⟨-1, 0, 0⟩ : V3 ℝ)
      = .ok ⟨⟨-1, -1, -1⟩, ⟨-1, -1, -1⟩, ⟨0, 0, 0⟩⟩ := by
    norm_num [SP.fromMinkowski, maxPoint3, V3.dot, V3.ext_iff]
  refine ⟨vs, ?_⟩
  have hall : EFace.newAll vs = .ok [⟨(3, 2, 1), some (N, N.dot ⟨-1, -1, 5⟩)⟩, ⟨(3, 1, 0), some (⟨-1, 0, 0⟩, 1)⟩, ⟨(3, 0, 2), some (⟨0, -1, 0⟩, 1)⟩,
      ⟨(2, 0, 1), some (⟨0, 0, -1⟩, 1)⟩] := by
    unfold EFace.newAll
    rw [f0, f1, f2, f3]; rfl
  obtain ⟨q, hq⟩ : ∃ q, epaPoint3 vs ⟨(3, 1, 0), some (⟨-1, 0, 0⟩, 1)⟩ ⟨-1, 0, 0⟩ 1 = .ok q := ⟨_, rfl⟩
  refine ⟨Contact.newWithPoint .fullResolution ⟨-1, 0, 0⟩ 1 q, ?_, rfl, rfl⟩
  unfold epa3
  rw [if_neg (by simp [vs]), hall, Res.bind_ok]
  unfold epa3Loop
  rw [hcl, Res.bind_ok]
  dsimp only
  rw [hsup, Res.bind_ok]
  dsimp only
  rw [if_pos (by norm_num [V3.dot]; exact htol), hq]
  rfl
end
end Verif.Minkowski
