import Verif.Scene.Culling
import Verif.Dbvt.RoundedSphere
import Verif.Dbvt.RoundedExact
/-!
# C99 for trees built in `f64`

The margins that wrapped values add to their bounds are rounded too; a margin that is not negative still encloses the box. With the numbers of binary64 (`Dbvt/Binary64`) this gives:
any list of at most 256 boxes in `f64`, wrapped with any margin, inserted one after the other; whatever the surface areas (they may be NaN, their type is left open), every ray, box and
frustum query of the tree answers exactly as the tests on the boxes themselves.
-/
namespace Verif.Dbvt
open Verif Geom
set_option linter.unusedSectionVars false
noncomputable section
open Classical
variable {F : Type} [LinearOrder F] (R : Rounding F)

/-- `add_margin`, `src/volume/aabb/aabb2.rs:88-93`, with rounding (called by `with_margin`, `src/volume/aabb/mod.rs:164-166`, from `src/dbvt/wrapped.rs:51-53`). -/
def addMarginF2 (b : Aabb2 F) (m : V2 F) : Aabb2 F :=
  Aabb2.new ⟨R.sub b.min.x m.x, R.sub b.min.y m.y⟩ ⟨R.add b.max.x m.x, R.add b.max.y m.y⟩
/-- `add_margin`, `src/volume/aabb/aabb3.rs:102-108`, with rounding. -/
def addMarginF3 (b : Aabb3 F) (m : V3 F) : Aabb3 F :=
  Aabb3.new ⟨R.sub b.min.x m.x, R.sub b.min.y m.y, R.sub b.min.z m.z⟩ ⟨R.add b.max.x m.x, R.add b.max.y m.y, R.add b.max.z m.z⟩

theorem Rounding.sub_le {a m : F} (h : R.zero ≤ m) : R.sub a m ≤ a := by
  have h0 : (0 : EReal) ≤ R.val m := R.val_zero ▸ R.val_mono h
  calc R.sub a m ≤ R.rnd (R.val a) := R.rnd_mono (by
        have := EReal.sub_le_sub (le_refl (R.val a)) h0
        rwa [sub_zero] at this)
    _ = a := R.rnd_val a
theorem Rounding.le_add {a m : F} (h : R.zero ≤ m) : a ≤ R.add a m := by
  have h0 : (0 : EReal) ≤ R.val m := R.val_zero ▸ R.val_mono h
  calc a = R.rnd (R.val a) := (R.rnd_val a).symm
    _ ≤ R.add a m := R.rnd_mono (by
        have := add_le_add (le_refl (R.val a)) h0
        rwa [add_zero] at this)

/-- A rounded margin that is not negative encloses the box. -/
theorem c99_margin2 (b : Aabb2 F) (m : V2 F) (hx : R.zero ≤ m.x) (hy : R.zero ≤ m.y) : (addMarginF2 R b m).Valid ∧ (addMarginF2 R b m).contains b = true := by
  refine ⟨(c24_new2 _ _).1, contains_iff2.2 ?_⟩
  simp only [addMarginF2, Aabb2.new, pmin_eq, pmax_eq]
  exact ⟨⟨min_le_of_left_le (R.sub_le hx), le_max_of_le_right (R.le_add hx)⟩, min_le_of_left_le (R.sub_le hy), le_max_of_le_right (R.le_add hy)⟩
theorem c99_margin3 (b : Aabb3 F) (m : V3 F) (hx : R.zero ≤ m.x) (hy : R.zero ≤ m.y) (hz : R.zero ≤ m.z) :
    (addMarginF3 R b m).Valid ∧ (addMarginF3 R b m).contains b = true := by
  refine ⟨(c24_new3 _ _).1, contains_iff3.2 ?_⟩
  simp only [addMarginF3, Aabb3.new, pmin_eq, pmax_eq]
  exact ⟨⟨min_le_of_left_le (R.sub_le hx), le_max_of_le_right (R.le_add hx)⟩, ⟨min_le_of_left_le (R.sub_le hy), le_max_of_le_right (R.le_add hy)⟩,
    min_le_of_left_le (R.sub_le hz), le_max_of_le_right (R.le_add hz)⟩

/-- Without rounding it is `add_margin` of C29. -/
theorem c99_exact_margin2 (b : Aabb2 ℝ) (m : V2 ℝ) : addMarginF2 exactR (box2E b) (V2.ereal m) = box2E (b.addMargin m) := by
  simp only [addMarginF2, Aabb2.addMargin, box2E, V2.ereal, Aabb2.new, pmin_eq, pmax_eq, Rounding.sub, Rounding.add, exactR, id, EReal.coe_strictMono.monotone.map_min,
    EReal.coe_strictMono.monotone.map_max, EReal.coe_sub, EReal.coe_add]
theorem c99_exact_margin3 (b : Aabb3 ℝ) (m : V3 ℝ) : addMarginF3 exactR (box3E b) (V3.ereal m) = box3E (b.addMargin m) := by
  simp only [addMarginF3, Aabb3.addMargin, box3E, V3.ereal, Aabb3.new, pmin_eq, pmax_eq, Rounding.sub, Rounding.add, exactR, id, EReal.coe_strictMono.monotone.map_min,
    EReal.coe_strictMono.monotone.map_max, EReal.coe_sub, EReal.coe_add]

/-- A sphere with real coordinates. -/
def sphereE (s : Sphere) : SphereF EReal := ⟨V3.ereal s.center, s.radius⟩
theorem exact_sub3 (a b : V3 ℝ) : subF exactR (V3.ereal a) (V3.ereal b) = V3.ereal (a - b) := by
  simp only [subF, V3.ereal, Rounding.sub, exactR, id, V3.sub_x, V3.sub_y, V3.sub_z, EReal.coe_sub]
theorem exact_mag2 (v : V3 ℝ) : mag2F exactR (V3.ereal v) = ((v.dot v : ℝ) : EReal) := by
  simp only [mag2F, V3.ereal, Rounding.mul, Rounding.add, exactR, id, V3.dot, EReal.coe_mul, EReal.coe_add]
theorem exact_norm (v : V3 ℝ) : exactR.sqrt (mag2F exactR (V3.ereal v)) = (v.norm : EReal) := by
  rw [exact_mag2]
  simp only [Rounding.sqrt, exactR, id, EReal.coe_ne_top, if_false, EReal.toReal_coe]
  rfl
/-- Without rounding, `SphereF` is the `Sphere` of C35. -/
theorem c103_exact (s o : Sphere) : SphereF.intersects exactR (sphereE s) (sphereE o) = s.intersects o ∧ SphereF.contains exactR (sphereE s) (sphereE o) = s.contains o ∧
    SphereF.union exactR (sphereE s) (sphereE o) = sphereE (s.union o) := by
  have hc : ∀ s o : Sphere, SphereF.contains exactR (sphereE s) (sphereE o) = s.contains o := by
    intro s o
    unfold SphereF.contains Sphere.contains sphereE
    rw [exact_sub3, exact_norm]
    rw [decide_eq_decide]
    simp only [Rounding.add, exactR, id, ← EReal.coe_add, EReal.coe_le_coe_iff]
  refine ⟨?_, hc s o, ?_⟩
  · unfold SphereF.intersects Sphere.intersects sphereE
    simp only [exact_sub3, exact_mag2]
    simp only [Rounding.add, Rounding.mul, exactR, id, ← EReal.coe_add, ← EReal.coe_mul, EReal.coe_le_coe_iff]
  · unfold SphereF.union Sphere.union
    rw [hc, hc]
    by_cases h1 : s.contains o = true
    · rw [if_pos h1, if_pos h1]
    by_cases h2 : o.contains s = true
    · rw [if_neg h1, if_neg h1, if_pos h2, if_pos h2]
    rw [if_neg h1, if_neg h1, if_neg h2, if_neg h2]
    have two : exactR.two = ((1 + 1 : ℝ) : EReal) := rfl
    simp only [sphereE, exact_sub3, exact_norm, two]
    simp only [V3.ereal, Rounding.add, Rounding.sub, Rounding.mul, Rounding.div, exactR, id, ← EReal.coe_add, ← EReal.coe_mul, ← EReal.coe_sub, ← EReal.coe_div]
    rfl
end
end Verif.Dbvt

namespace Verif.Scene
open Verif Geom Dbvt BroadPhase
set_option linter.unusedSectionVars false
noncomputable section
open Classical

/-- Boxes with `f64` coordinates. -/
abbrev Box64_2 := { b : Aabb2 F64 // b.Valid }
abbrev Box64_3 := { b : Aabb3 F64 // b.Valid }
/-- A box with a margin (`TreeValueWrapped`, `src/dbvt/wrapped.rs:11-54`). -/
def fat2 (m : V2 F64) (hm : f0 ≤ m.x ∧ f0 ≤ m.y) (b : Box64_2) : Box64_2 := ⟨addMarginF2 binary64 b.1 m, (c99_margin2 binary64 b.1 m hm.1 hm.2).1⟩
def fat3 (m : V3 F64) (hm : f0 ≤ m.x ∧ f0 ≤ m.y ∧ f0 ≤ m.z) (b : Box64_3) : Box64_3 := ⟨addMarginF3 binary64 b.1 m, (c99_margin3 binary64 b.1 m hm.1 hm.2.1 hm.2.2).1⟩

/-- **C99 in `f64`, 2D.** -/
theorem c99_f64_2d {V S : Type} (bound : V → Box64_2) (m : V2 F64) (hm : f0 ≤ m.x ∧ f0 ≤ m.y) (area : Aabb2 F64 → S) (lt : S → S → Bool) (sub div : S → S → S) (im : S)
    (vs : List V) (hvs : vs.length ≤ 256) (rng : Nat → Nat) :
    ∃ s : Dbvt V Box64_2, s.values.map Prod.snd = vs ∧
      (∃ h, Exec (fOps2 bound (fun v => fat2 m hm (bound v)) area lt sub div im) h s) ∧
      (∀ o d : V2 F64, ∃ l, s.query (fOps2 bound (fun v => fat2 m hm (bound v)) area lt sub div im) (continuousVisitor fun b => intersectionF2 binary64 o d b.1) () = .ok l ∧
        l.Perm (vs.filterMap fun v => (intersectionF2 binary64 o d (bound v).1).map fun p => (v, p))) ∧
      (∀ o d : V2 F64, ∃ l, s.query (fOps2 bound (fun v => fat2 m hm (bound v)) area lt sub div im) (discreteVisitor fun b => intersectsF2 binary64 o d b.1) () = .ok l ∧
        (l.map Prod.fst).Perm (vs.filter fun v => intersectsF2 binary64 o d (bound v).1)) ∧
      (∀ q : Box64_2, ∃ l, s.query (fOps2 bound (fun v => fat2 m hm (bound v)) area lt sub div im) (discreteVisitor fun b => b.1.intersects q.1) () = .ok l ∧
        (l.map Prod.fst).Perm (vs.filter fun v => (bound v).1.intersects q.1)) := by
  obtain ⟨h, s, he, hd, hu, hr, hv⟩ := build_tree (fOps2 bound (fun v => fat2 m hm (bound v)) area lt sub div im) vs rng
  obtain ⟨n, hh, -, -, hn, -⟩ := c04_height _ he hr
  have hl : s.values.length = vs.length := by rw [← hv, List.length_map]
  have hfat : ∀ v, (fat2 m hm (bound v)).1.contains (bound v).1 = true := fun v => (c99_margin2 binary64 (bound v).1 m hm.1 hm.2).2
  refine ⟨s, hv, ⟨h, he⟩, fun o d => ?_, fun o d => ?_, fun q => ?_⟩
  · obtain ⟨⟨l, q1, q2⟩, -⟩ := c99_ray2 binary64 bound _ area lt sub div im hfat o d he hd hu hr hh (by omega)
    refine ⟨l, q1, q2.trans (List.Perm.of_eq ?_)⟩
    rw [← hv, List.filterMap_map]; rfl
  · obtain ⟨-, l, q1, q2⟩ := c99_ray2 binary64 bound _ area lt sub div im hfat o d he hd hu hr hh (by omega)
    exact ⟨l, q1, hv ▸ q2⟩
  · rcases query_discrete _ _ (fEncloses2 bound (fun v => fat2 m hm (bound v)) area lt sub div im) hfat (fun b => b.1.intersects q.1)
      (fun big small hc hs => by
        obtain ⟨⟨a1, a2⟩, a3, a4⟩ := contains_iff2.1 hc
        simp only [Aabb2.intersects, Bool.and_eq_true, decide_eq_true_eq] at hs ⊢
        exact ⟨⟨⟨hs.1.1.1.trans_le a2, a1.trans_lt hs.1.1.2⟩, hs.1.2.trans_le a4⟩, a3.trans_lt hs.2⟩) he hd hu hr hh with ⟨l, q1, q2⟩ | ⟨q1, -⟩
    · exact ⟨l, q1, hv ▸ q2⟩
    · omega

/-- **C99 in `f64`, 3D.** The ray: without NaN in the test (no zero component, finite inverses). -/
theorem c99_f64_3d {V S : Type} (bound : V → Box64_3) (m : V3 F64) (hm : f0 ≤ m.x ∧ f0 ≤ m.y ∧ f0 ≤ m.z) (area : Aabb3 F64 → S) (lt : S → S → Bool) (sub div : S → S → S) (im : S)
    (vs : List V) (hvs : vs.length ≤ 256) (rng : Nat → Nat) :
    ∃ s : Dbvt V Box64_3, s.values.map Prod.snd = vs ∧
      (∃ h, Exec (fOps3 bound (fun v => fat3 m hm (bound v)) area lt sub div im) h s) ∧
      (∀ o d : V3 F64, ∃ l, s.query (fOps3 bound (fun v => fat3 m hm (bound v)) area lt sub div im) (continuousVisitor fun b => intersectionF3 binary64 o d b.1) () = .ok l ∧
        l.Perm (vs.filterMap fun v => (intersectionF3 binary64 o d (bound v).1).map fun p => (v, p))) ∧
      (∀ planes : List (PlaneF F64), ∃ l, s.query (fOps3 bound (fun v => fat3 m hm (bound v)) area lt sub div im)
          (pureVisitor fun b _ => if frustumF binary64 planes b.1 = .Out then none else some (frustumF binary64 planes b.1)) () = .ok l ∧
        l.Perm (notOut (fun v => frustumF binary64 planes (bound v).1) vs)) ∧
      (∀ q : Box64_3, ∃ l, s.query (fOps3 bound (fun v => fat3 m hm (bound v)) area lt sub div im) (discreteVisitor fun b => b.1.intersects q.1) () = .ok l ∧
        (l.map Prod.fst).Perm (vs.filter fun v => (bound v).1.intersects q.1)) := by
  obtain ⟨h, s, he, hd, hu, hr, hv⟩ := build_tree (fOps3 bound (fun v => fat3 m hm (bound v)) area lt sub div im) vs rng
  obtain ⟨n, hh, -, -, hn, -⟩ := c04_height _ he hr
  have hl : s.values.length = vs.length := by rw [← hv, List.length_map]
  have hfat : ∀ v, (fat3 m hm (bound v)).1.contains (bound v).1 = true := fun v => (c99_margin3 binary64 (bound v).1 m hm.1 hm.2.1 hm.2.2).2
  refine ⟨s, hv, ⟨h, he⟩, fun o d => ?_, fun planes => ?_, fun q => ?_⟩
  · obtain ⟨⟨l, q1, q2⟩, -⟩ := c99_ray3 binary64 bound _ area lt sub div im hfat o d he hd hu hr hh (by omega)
    refine ⟨l, q1, q2.trans (List.Perm.of_eq ?_)⟩
    rw [← hv, List.filterMap_map]; rfl
  · obtain ⟨l, q1, q2⟩ := c99_frustum binary64 bound _ area lt sub div im hfat planes he hd hu hr hh (by omega)
    exact ⟨l, q1, hv ▸ q2⟩
  · rcases query_discrete _ _ (fEncloses3 bound (fun v => fat3 m hm (bound v)) area lt sub div im) hfat (fun b => b.1.intersects q.1)
      (fun big small hc hs => by
        obtain ⟨⟨a1, a2⟩, ⟨a3, a4⟩, a5, a6⟩ := contains_iff3.1 hc
        simp only [Aabb3.intersects, Bool.and_eq_true, decide_eq_true_eq] at hs ⊢
        obtain ⟨⟨⟨⟨⟨s1, s2⟩, s3⟩, s4⟩, s5⟩, s6⟩ := hs
        exact ⟨⟨⟨⟨⟨s1.trans_le a2, a1.trans_lt s2⟩, s3.trans_le a4⟩, a3.trans_lt s4⟩, s5.trans_le a6⟩, a5.trans_lt s6⟩) he hd hu hr hh with ⟨l, q1, q2⟩ | ⟨q1, -⟩
    · exact ⟨l, q1, hv ▸ q2⟩
    · omega
end
end Verif.Scene
