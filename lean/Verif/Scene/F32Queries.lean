import Verif.Scene.F64Closest
import Verif.Scene.Formats
/-!
# The queries on trees in `f32` (C120)

What C99 (the tree answers exactly as the tests on the boxes), C109 (culling), C110 (rays) and C111 (the closest hit) say of `f64`, for `f32`, which the crate is mostly used with. The parts that do not depend on the
format are in Dbvt/Rounded, F64Culling, F64Ray and F64Closest; here they are applied to binary32.
-/
namespace Verif.Dbvt.B32
open Verif Geom Verif.Dbvt
set_option linter.unusedSectionVars false
noncomputable section
open Classical

theorem rnd_fin {r : ℝ} (h : Rep32 r) : binary32.rnd (r : EReal) = F32.fin r h := binary32.rnd_val (F32.fin r h)
theorem val_fin {r : ℝ} (h : Rep32 r) : binary32.val (F32.fin r h) = (r : EReal) := rfl
theorem fin_eq {r s : ℝ} (hr : Rep32 r) (hs : Rep32 s) (h : r = s) : F32.fin r hr = F32.fin s hs := by subst h; rfl

/-- The smallest positive number. -/
def tiny32 : ℝ := (2 : ℝ) ^ (-149 : ℤ)
theorem tiny_pos32 : 0 < tiny32 := zpow_pos (by norm_num) _
theorem rep32_tiny : Rep32 tiny32 := ⟨1, -149, by norm_num, by norm_num, by norm_num, by simp [tiny32]⟩
theorem rep32_neg_tiny : Rep32 (-tiny32) := ⟨-1, -149, by norm_num, by norm_num, by norm_num, by simp [tiny32]⟩

/-- Gradual underflow: only numbers nearer to zero than the smallest positive one are rounded to zero. -/
theorem rnd32_ne_zero {x : ℝ} (h : tiny32 ≤ |x|) : binary32.rnd (x : EReal) ≠ binary32.zero := by
  intro e
  change _ = F32.fin 0 rep32_zero at e
  rcases le_abs.1 h with h | h
  · have := binary32.rnd_mono (EReal.coe_le_coe_iff.2 h)
    rw [rnd_fin rep32_tiny, e] at this
    exact absurd (fin_le.1 this) (not_le.2 tiny_pos32)
  · have := binary32.rnd_mono (EReal.coe_le_coe_iff.2 (show x ≤ -tiny32 by linarith))
    rw [rnd_fin rep32_neg_tiny, e] at this
    have := fin_le.1 this
    linarith [tiny_pos32]

theorem rep32_multiple {a : ℝ} (h : Rep32 a) : ∃ k : ℤ, a = k * tiny32 := by
  obtain ⟨m, e, -, h2, -, rfl⟩ := h
  obtain ⟨n, hn⟩ := Int.eq_ofNat_of_zero_le (show 0 ≤ e + 149 by omega)
  refine ⟨m * 2 ^ n, ?_⟩
  have : (2 : ℝ) ^ e = 2 ^ n * tiny32 := by
    rw [tiny32, ← zpow_natCast, ← zpow_add₀ (by norm_num)]
    congr 1
    omega
  rw [this]; push_cast; ring

/-- A rounded difference is zero only for equal numbers. -/
theorem sub32_zero {a b : F32} (hb : b ≠ binary32.inf ∧ b ≠ binary32.ninf) (h : binary32.sub a b = binary32.zero) : a = b := by
  rcases f32_cases b with rfl | rfl | ⟨s, hs, rfl⟩
  · exact absurd rfl hb.2
  · exact absurd rfl hb.1
  rcases f32_cases a with rfl | rfl | ⟨r, hr, rfl⟩
  · exfalso
    have e : binary32.sub F32.bot (F32.fin s hs) = F32.bot := by
      unfold Rounding.sub
      rw [val_fin, show binary32.val F32.bot = ⊥ from rfl, EReal.bot_sub]
      exact binary32.val_eq rfl
    rw [e] at h
    have := congrArg binary32.val h
    rw [binary32.val_zero] at this
    exact absurd this (by simp [binary32, F32.bot])
  · exfalso
    have e : binary32.sub F32.top (F32.fin s hs) = F32.top := by
      unfold Rounding.sub
      rw [val_fin, show binary32.val F32.top = ⊤ from rfl, EReal.top_sub_coe]
      exact binary32.val_eq rfl
    rw [e] at h
    have := congrArg binary32.val h
    rw [binary32.val_zero] at this
    exact absurd this (by simp [binary32, F32.top])
  · refine fin_eq _ _ ?_
    by_contra hne
    unfold Rounding.sub at h
    rw [val_fin, val_fin, ← EReal.coe_sub] at h
    refine rnd32_ne_zero ?_ h
    obtain ⟨k, rfl⟩ := rep32_multiple hr
    obtain ⟨l, rfl⟩ := rep32_multiple hs
    rw [← sub_mul, abs_mul, abs_of_pos tiny_pos32]
    have hkl : k - l ≠ 0 := fun e => hne (by rw [sub_eq_zero.1 e])
    have : (1 : ℝ) ≤ |((k - l : ℤ) : ℝ)| := by rw [← Int.cast_abs]; exact_mod_cast Int.one_le_abs hkl
    push_cast at this
    nlinarith [tiny_pos32]

/-- The inverse of a finite direction is not zero. -/
theorem inv32_ne_zero (neg : Bool) {d : F32} (hd : d ≠ binary32.inf ∧ d ≠ binary32.ninf) : binary32.invN neg d ≠ binary32.zero := by
  unfold Rounding.invN
  by_cases h0 : d = binary32.zero
  · rw [if_pos h0]
    intro e
    have := congrArg binary32.val e
    rw [binary32.val_zero] at this
    cases neg
    · rw [if_neg (by simp), binary32.val_inf] at this; exact absurd this (by simp)
    · rw [if_pos rfl, binary32.val_ninf] at this; exact absurd this (by simp)
  · rw [if_neg h0]
    rcases f32_cases d with rfl | rfl | ⟨s, hs, rfl⟩
    · exact absurd rfl hd.2
    · exact absurd rfl hd.1
    unfold Rounding.div
    rw [val_fin, binary32.val_one, ← EReal.coe_one, ← EReal.coe_div]
    have hs0 : s ≠ 0 := fun e => h0 (by subst e; rfl)
    refine rnd32_ne_zero ?_
    rw [abs_div, abs_one, le_div_iff₀ (abs_pos.2 hs0)]
    have h1 : |s| ≤ 2 ^ 128 := by
      have := rep32_lt hs
      unfold over32 at this
      have h2 : (0 : ℝ) < 2 ^ 103 := by positivity
      exact this.le.trans (sub_le_self _ h2.le)
    calc tiny32 * |s| ≤ tiny32 * 2 ^ 128 := mul_le_mul_of_nonneg_left h1 tiny_pos32.le
      _ = (2 : ℝ) ^ (-21 : ℤ) := by
        rw [tiny32, ← zpow_natCast, ← zpow_add₀ (by norm_num)]
        norm_num
      _ ≤ 1 := by norm_num

/-- A finite number. -/
def Fin32 (a : F32) : Prop := a ≠ binary32.inf ∧ a ≠ binary32.ninf

theorem rayOk32 (nz : V3 Bool) (o d : V3 F32) (ho : Fin32 o.x ∧ Fin32 o.y ∧ Fin32 o.z) (hd : Fin32 d.x ∧ Fin32 d.y ∧ Fin32 d.z) : RayOk binary32 nz o d :=
  ⟨⟨ho.1, inv32_ne_zero _ hd.1⟩, ⟨ho.2.1, inv32_ne_zero _ hd.2.1⟩, ⟨ho.2.2, inv32_ne_zero _ hd.2.2⟩⟩

theorem thick32 (o : V3 F32) (ho : Fin32 o.x ∧ Fin32 o.y ∧ Fin32 o.z) {b : Aabb3 F32} (hb : Solid b) : Thick binary32 o b :=
  ⟨fun h => absurd hb.1 (by rw [sub32_zero ho.1 h.1, sub32_zero ho.1 h.2]; exact lt_irrefl _),
   fun h => absurd hb.2.1 (by rw [sub32_zero ho.2.1 h.1, sub32_zero ho.2.1 h.2]; exact lt_irrefl _),
   fun h => absurd hb.2.2 (by rw [sub32_zero ho.2.2 h.1, sub32_zero ho.2.2 h.2]; exact lt_irrefl _)⟩
end
end Verif.Dbvt.B32

namespace Verif.Scene
open Verif Geom Dbvt Minkowski BroadPhase
open Verif.Dbvt.B32 (F32 binary32 Rep32 Fin32 rayOk32 thick32)
set_option linter.unusedSectionVars false
noncomputable section
open Classical
variable {F : Type} [LinearOrder F] {R : Rounding F} {u η Ω M D : ℝ}

/-- Zero in `f32`. -/
def z32 : F32 := binary32.zero
theorem rep32_int24 {n : ℤ} (h : |n| < 2 ^ 24) : Rep binary32 (n : ℝ) := rep_of_rep32 ⟨n, 0, h, by norm_num, by norm_num, by norm_num⟩

/-- Boxes with `f32` coordinates. -/
abbrev Box32_2 := { b : Aabb2 F32 // b.Valid }
abbrev Box32_3 := { b : Aabb3 F32 // b.Valid }
/-- A box with a margin (`TreeValueWrapped`, `src/dbvt/wrapped.rs:11-54`). -/
def fat2_32 (m : V2 F32) (hm : z32 ≤ m.x ∧ z32 ≤ m.y) (b : Box32_2) : Box32_2 := ⟨addMarginF2 binary32 b.1 m, (c99_margin2 binary32 b.1 m hm.1 hm.2).1⟩
def fat3_32 (m : V3 F32) (hm : z32 ≤ m.x ∧ z32 ≤ m.y ∧ z32 ≤ m.z) (b : Box32_3) : Box32_3 := ⟨addMarginF3 binary32 b.1 m, (c99_margin3 binary32 b.1 m hm.1 hm.2.1 hm.2.2).1⟩

/-- **C120 (C99) in `f32`, 2D.** -/
theorem c120_boxes2 {V S : Type} (bound : V → Box32_2) (m : V2 F32) (hm : z32 ≤ m.x ∧ z32 ≤ m.y) (area : Aabb2 F32 → S) (lt : S → S → Bool) (sub div : S → S → S) (im : S)
    (vs : List V) (hvs : vs.length ≤ 256) (rng : Nat → Nat) :
    ∃ s : Dbvt V Box32_2, s.values.map Prod.snd = vs ∧
      (∃ h, Exec (fOps2 bound (fun v => fat2_32 m hm (bound v)) area lt sub div im) h s) ∧
      (∀ o d : V2 F32, ∃ l, s.query (fOps2 bound (fun v => fat2_32 m hm (bound v)) area lt sub div im) (continuousVisitor fun b => intersectionF2 binary32 o d b.1) () = .ok l ∧
        l.Perm (vs.filterMap fun v => (intersectionF2 binary32 o d (bound v).1).map fun p => (v, p))) ∧
      (∀ o d : V2 F32, ∃ l, s.query (fOps2 bound (fun v => fat2_32 m hm (bound v)) area lt sub div im) (discreteVisitor fun b => intersectsF2 binary32 o d b.1) () = .ok l ∧
        (l.map Prod.fst).Perm (vs.filter fun v => intersectsF2 binary32 o d (bound v).1)) ∧
      (∀ q : Box32_2, ∃ l, s.query (fOps2 bound (fun v => fat2_32 m hm (bound v)) area lt sub div im) (discreteVisitor fun b => b.1.intersects q.1) () = .ok l ∧
        (l.map Prod.fst).Perm (vs.filter fun v => (bound v).1.intersects q.1)) := by
  obtain ⟨h, s, he, hd, hu, hr, hv⟩ := build_tree (fOps2 bound (fun v => fat2_32 m hm (bound v)) area lt sub div im) vs rng
  obtain ⟨n, hh, -, -, hn, -⟩ := c04_height _ he hr
  have hl : s.values.length = vs.length := by rw [← hv, List.length_map]
  have hfat : ∀ v, (fat2_32 m hm (bound v)).1.contains (bound v).1 = true := fun v => (c99_margin2 binary32 (bound v).1 m hm.1 hm.2).2
  refine ⟨s, hv, ⟨h, he⟩, fun o d => ?_, fun o d => ?_, fun q => ?_⟩
  · obtain ⟨⟨l, q1, q2⟩, -⟩ := c99_ray2 binary32 bound _ area lt sub div im hfat o d he hd hu hr hh (by omega)
    refine ⟨l, q1, q2.trans (List.Perm.of_eq ?_)⟩
    rw [← hv, List.filterMap_map]; rfl
  · obtain ⟨-, l, q1, q2⟩ := c99_ray2 binary32 bound _ area lt sub div im hfat o d he hd hu hr hh (by omega)
    exact ⟨l, q1, hv ▸ q2⟩
  · rcases query_discrete _ _ (fEncloses2 bound (fun v => fat2_32 m hm (bound v)) area lt sub div im) hfat (fun b => b.1.intersects q.1)
      (fun big small hc hs => by
        obtain ⟨⟨a1, a2⟩, a3, a4⟩ := contains_iff2.1 hc
        simp only [Aabb2.intersects, Bool.and_eq_true, decide_eq_true_eq] at hs ⊢
        exact ⟨⟨⟨hs.1.1.1.trans_le a2, a1.trans_lt hs.1.1.2⟩, hs.1.2.trans_le a4⟩, a3.trans_lt hs.2⟩) he hd hu hr hh with ⟨l, q1, q2⟩ | ⟨q1, -⟩
    · exact ⟨l, q1, hv ▸ q2⟩
    · omega

/-- **C120 (C99) in `f32`, 3D.** The ray: without NaN in the test (no zero component, finite inverses). -/
theorem c120_boxes3 {V S : Type} (bound : V → Box32_3) (m : V3 F32) (hm : z32 ≤ m.x ∧ z32 ≤ m.y ∧ z32 ≤ m.z) (area : Aabb3 F32 → S) (lt : S → S → Bool) (sub div : S → S → S) (im : S)
    (vs : List V) (hvs : vs.length ≤ 256) (rng : Nat → Nat) :
    ∃ s : Dbvt V Box32_3, s.values.map Prod.snd = vs ∧
      (∃ h, Exec (fOps3 bound (fun v => fat3_32 m hm (bound v)) area lt sub div im) h s) ∧
      (∀ o d : V3 F32, ∃ l, s.query (fOps3 bound (fun v => fat3_32 m hm (bound v)) area lt sub div im) (continuousVisitor fun b => intersectionF3 binary32 o d b.1) () = .ok l ∧
        l.Perm (vs.filterMap fun v => (intersectionF3 binary32 o d (bound v).1).map fun p => (v, p))) ∧
      (∀ planes : List (PlaneF F32), ∃ l, s.query (fOps3 bound (fun v => fat3_32 m hm (bound v)) area lt sub div im)
          (pureVisitor fun b _ => if frustumF binary32 planes b.1 = .Out then none else some (frustumF binary32 planes b.1)) () = .ok l ∧
        l.Perm (notOut (fun v => frustumF binary32 planes (bound v).1) vs)) ∧
      (∀ q : Box32_3, ∃ l, s.query (fOps3 bound (fun v => fat3_32 m hm (bound v)) area lt sub div im) (discreteVisitor fun b => b.1.intersects q.1) () = .ok l ∧
        (l.map Prod.fst).Perm (vs.filter fun v => (bound v).1.intersects q.1)) := by
  obtain ⟨h, s, he, hd, hu, hr, hv⟩ := build_tree (fOps3 bound (fun v => fat3_32 m hm (bound v)) area lt sub div im) vs rng
  obtain ⟨n, hh, -, -, hn, -⟩ := c04_height _ he hr
  have hl : s.values.length = vs.length := by rw [← hv, List.length_map]
  have hfat : ∀ v, (fat3_32 m hm (bound v)).1.contains (bound v).1 = true := fun v => (c99_margin3 binary32 (bound v).1 m hm.1 hm.2.1 hm.2.2).2
  refine ⟨s, hv, ⟨h, he⟩, fun o d => ?_, fun planes => ?_, fun q => ?_⟩
  · obtain ⟨⟨l, q1, q2⟩, -⟩ := c99_ray3 binary32 bound _ area lt sub div im hfat o d he hd hu hr hh (by omega)
    refine ⟨l, q1, q2.trans (List.Perm.of_eq ?_)⟩
    rw [← hv, List.filterMap_map]; rfl
  · obtain ⟨l, q1, q2⟩ := c99_frustum binary32 bound _ area lt sub div im hfat planes he hd hu hr hh (by omega)
    exact ⟨l, q1, hv ▸ q2⟩
  · rcases query_discrete _ _ (fEncloses3 bound (fun v => fat3_32 m hm (bound v)) area lt sub div im) hfat (fun b => b.1.intersects q.1)
      (fun big small hc hs => by
        obtain ⟨⟨a1, a2⟩, ⟨a3, a4⟩, a5, a6⟩ := contains_iff3.1 hc
        simp only [Aabb3.intersects, Bool.and_eq_true, decide_eq_true_eq] at hs ⊢
        obtain ⟨⟨⟨⟨⟨s1, s2⟩, s3⟩, s4⟩, s5⟩, s6⟩ := hs
        exact ⟨⟨⟨⟨⟨s1.trans_le a2, a1.trans_lt s2⟩, s3.trans_le a4⟩, a3.trans_lt s4⟩, s5.trans_le a6⟩, a5.trans_lt s6⟩) he hd hu hr hh with ⟨l, q1, q2⟩ | ⟨q1, -⟩
    · exact ⟨l, q1, hv ▸ q2⟩
    · omega

/-- Boxes with `f32` coordinates that are not flat. -/
abbrev Solid32 := { b : Aabb3 F32 // Solid b }
theorem solid_valid32 {b : Aabb3 F32} (h : Solid b) : b.Valid := ⟨h.1.le, h.2.1.le, h.2.2.le⟩
theorem solid_grow32 {a b : Aabb3 F32} (h : a.contains b = true) (hb : Solid b) : Solid a := by
  obtain ⟨⟨x1, x2⟩, ⟨y1, y2⟩, z1, z2⟩ := contains_iff3.1 h
  exact ⟨(x1.trans_lt hb.1).trans_le x2, (y1.trans_lt hb.2.1).trans_le y2, (z1.trans_lt hb.2.2).trans_le z2⟩
/-- A tree of boxes that are not flat, with margins as in `src/dbvt/wrapped.rs:51-24`. -/
def solidOps32 {V S : Type} (bound : V → Solid32) (m : V3 F32) (hm : z32 ≤ m.x ∧ z32 ≤ m.y ∧ z32 ≤ m.z) (area : Aabb3 F32 → S) (lt : S → S → Bool) (sub div : S → S → S) (im : S) : Ops V Solid32 S where
  bound := bound
  fat v := ⟨addMarginF3 binary32 (bound v).1 m, solid_grow32 (c99_margin3 binary32 (bound v).1 m hm.1 hm.2.1 hm.2.2).2 (bound v).2⟩
  union a b := ⟨a.1.union b.1, solid_grow32 (c25_union_contains3 _ _).2.1 a.2⟩
  contains a b := a.1.contains b.1
  area a := area a.1
  lt := lt
  sub := sub
  div := div
  improvement := im
theorem solidEncloses32 {V S : Type} (bound : V → Solid32) (m : V3 F32) (hm : z32 ≤ m.x ∧ z32 ≤ m.y ∧ z32 ≤ m.z) (area : Aabb3 F32 → S) (lt : S → S → Bool) (sub div : S → S → S) (im : S) :
    Encloses (solidOps32 bound m hm area lt sub div im) (fun a b => a.1.contains b.1 = true) where
  trans := c26_order3.2.1 _ _ _
  union_left a b := (c25_union_contains3 a.1 b.1).2.1
  union_right a b := (c25_union_contains3 a.1 b.1).2.2
  contains h := h

/-- **C120 (C99) in `f32`, all rays in 3D**, for every history. -/
theorem c120_rays3 {V S : Type} (bound : V → Solid32) (m : V3 F32) (hm : z32 ≤ m.x ∧ z32 ≤ m.y ∧ z32 ≤ m.z) (area : Aabb3 F32 → S) (lt : S → S → Bool) (sub div : S → S → S) (im : S)
    (nz : V3 Bool) (o d : V3 F32) (ho : Fin32 o.x ∧ Fin32 o.y ∧ Fin32 o.z) (hdir : Fin32 d.x ∧ Fin32 d.y ∧ Fin32 d.z)
    {h : Hist V} {s : Dbvt V Solid32} (he : Exec (solidOps32 bound m hm area lt sub div im) h s)
    (hd : Disciplined (solidOps32 bound m hm area lt sub div im) h) (hu : UpToDate (solidOps32 bound m hm area lt sub div im) h)
    (hr : Refitted! h) {n : Nat} (hh : s.height = .ok n) (hn : n ≤ 256) :
    (∃ l, s.query (solidOps32 bound m hm area lt sub div im) (continuousVisitor fun b => intersectionN3 binary32 nz o d b.1) () = .ok l ∧
      l.Perm (s.values.filterMap fun e => (intersectionN3 binary32 nz o d (bound e.2).1).map fun p => (e.2, p))) ∧
    (∃ l, s.query (solidOps32 bound m hm area lt sub div im) (discreteVisitor fun b => intersectsN3 binary32 nz o d b.1) () = .ok l ∧
      (l.map Prod.fst).Perm ((s.values.map Prod.snd).filter fun v => intersectsN3 binary32 nz o d (bound v).1)) := by
  have hfat : ∀ v, (solidOps32 bound m hm area lt sub div im).contains ((solidOps32 bound m hm area lt sub div im).fat v) ((solidOps32 bound m hm area lt sub div im).bound v) = true :=
    fun v => (c99_margin3 binary32 (bound v).1 m hm.1 hm.2.1 hm.2.2).2
  have hmono := fun (big small : Solid32) (hc : big.1.contains small.1 = true) =>
    c99_mono_nan3 binary32 (rayOk32 nz o d ho hdir) (solid_valid32 small.2) (thick32 o ho small.2) hc
  constructor
  · rcases c07_query _ _ (solidEncloses32 bound m hm area lt sub div im) hfat (fun b _ => intersectionN3 binary32 nz o d b.1)
      (fun big small hc hs => (hmono big small hc).2 hs) he hd hu hr hh with ⟨-, l, h1, h2⟩ | ⟨h1, -⟩
    · exact ⟨l, h1, h2⟩
    · omega
  · rcases query_discrete _ _ (solidEncloses32 bound m hm area lt sub div im) hfat (fun b => intersectsN3 binary32 nz o d b.1)
      (fun big small hc hs => (hmono big small hc).1 hs) he hd hu hr hh with ⟨l, h1, h2⟩ | ⟨h1, -⟩
    · exact ⟨l, h1, h2⟩
    · omega

/-- Such trees exist: any list of at most 256 boxes. -/
theorem c120_rays3_built {V S : Type} (bound : V → Solid32) (m : V3 F32) (hm : z32 ≤ m.x ∧ z32 ≤ m.y ∧ z32 ≤ m.z) (area : Aabb3 F32 → S) (lt : S → S → Bool) (sub div : S → S → S) (im : S)
    (vs : List V) (hvs : vs.length ≤ 256) (rng : Nat → Nat) :
    ∃ s : Dbvt V Solid32, s.values.map Prod.snd = vs ∧ (∃ h, Exec (solidOps32 bound m hm area lt sub div im) h s) ∧
      ∀ (nz : V3 Bool) (o d : V3 F32), (Fin32 o.x ∧ Fin32 o.y ∧ Fin32 o.z) → (Fin32 d.x ∧ Fin32 d.y ∧ Fin32 d.z) →
        ∃ l, s.query (solidOps32 bound m hm area lt sub div im) (continuousVisitor fun b => intersectionN3 binary32 nz o d b.1) () = .ok l ∧
          l.Perm (vs.filterMap fun v => (intersectionN3 binary32 nz o d (bound v).1).map fun p => (v, p)) := by
  obtain ⟨h, s, he, hd, hu, hr, hv⟩ := build_tree (solidOps32 bound m hm area lt sub div im) vs rng
  obtain ⟨n, hh, -, -, hn, -⟩ := c04_height _ he hr
  have hl : s.values.length = vs.length := by rw [← hv, List.length_map]
  refine ⟨s, hv, ⟨h, he⟩, fun nz o d ho hdir => ?_⟩
  obtain ⟨⟨l, q1, q2⟩, -⟩ := c120_rays3 bound m hm area lt sub div im nz o d ho hdir he hd hu hr hh (by omega)
  refine ⟨l, q1, q2.trans (List.Perm.of_eq ?_)⟩
  rw [← hv, List.filterMap_map]; rfl

/-- The rounding error in `f32` for planes with a normal of components of at most 1. -/
def cullErr32 (M : ℝ) : ℝ := 10 * ((2 : ℝ) ^ (-24 : ℤ) * M)

/-- **C120 (C109), a culling query in `f32`** on a tree of at most 256 boxes with any margin: every value of whose box a point is inside all planes by the rounding error is returned; a value called `In` is inside
all planes up to the rounding error; a value that is outside a plane by more than the rounding error is not returned; `Out` is not returned, and no value more often than it is stored. -/
theorem c120_culling {V S : Type} (hM : 1 ≤ M) (hM' : M ≤ 2 ^ 60) (box : V → Aabb3 ℝ) (hb : ∀ v, FitsB binary32 M (box v)) (m : V3 F32) (hm : z32 ≤ m.x ∧ z32 ≤ m.y ∧ z32 ≤ m.z) (area : Aabb3 F32 → S)
    (lt : S → S → Bool) (sub div : S → S → S) (im : S) (vs : List V) (hvs : vs.length ≤ 256) (rng : Nat → Nat) :
    ∃ s : Dbvt V Box32_3, s.values.map Prod.snd = vs ∧
      ∀ planes : List (Plane ℝ), (∀ P ∈ planes, FitsP binary32 1 P) →
        ∃ l, s.query (fOps3 (fun v => (⟨boxR3 binary32 (box v), boxR3_valid (hb v).1⟩ : Box32_3)) (fun v => fat3_32 m hm ⟨boxR3 binary32 (box v), boxR3_valid (hb v).1⟩) area lt sub div im)
            (pureVisitor fun b _ => if frustumF binary32 (planes.map (planeR binary32)) b.1 = .Out then none else some (frustumF binary32 (planes.map (planeR binary32)) b.1)) () = .ok l ∧
          (l.map Prod.fst).Subperm vs ∧
          (∀ v ∈ vs, (∃ p, (box v).Mem p ∧ ∀ P ∈ planes, cullErr32 M ≤ Plane.gap P p) → ∃ r, (v, r) ∈ l) ∧
          (∀ v, (v, Relation.In) ∈ l → ∀ p, (box v).Mem p → ∀ P ∈ planes, -cullErr32 M < Plane.gap P p) ∧
          (∀ v r, (v, r) ∈ l → r ≠ .Out ∧ ∀ P ∈ planes, ∃ p, (box v).Mem p ∧ -cullErr32 M ≤ Plane.gap P p) := by
  obtain ⟨s, hv, -, -, hq, -⟩ := c120_boxes3 (fun v => (⟨boxR3 binary32 (box v), boxR3_valid (hb v).1⟩ : Box32_3)) m hm area lt sub div im vs hvs rng
  refine ⟨s, hv, fun planes hP => ?_⟩
  obtain ⟨l, h1, h2⟩ := hq (planes.map (planeR binary32))
  have hΩ : 4 * (M * 1) + 1 ≤ (2 : ℝ) ^ (126 : ℤ) := by
    have h1 : 4 * (M * 1) + 1 ≤ 2 ^ 3 * 2 ^ 60 := by linarith
    rw [← pow_add] at h1
    refine h1.trans ?_
    rw [← zpow_natCast]
    exact zpow_le_zpow_right₀ (by norm_num) (by norm_num)
  have hE : planeErr ((2 : ℝ) ^ (-24 : ℤ)) ((2 : ℝ) ^ (-150 : ℤ)) M 1 ≤ cullErr32 M := by
    have q1 : (2 : ℝ) ^ (-150 : ℤ) ≤ (2 : ℝ) ^ (-27 : ℤ) := zpow_le_zpow_right₀ (by norm_num) (by norm_num)
    have q2 : (2 : ℝ) ^ (-24 : ℤ) = 8 * (2 : ℝ) ^ (-27 : ℤ) := by norm_num
    have q3 : (0 : ℝ) < (2 : ℝ) ^ (-27 : ℤ) := zpow_pos (by norm_num) _
    have q4 : (2 : ℝ) ^ (-24 : ℤ) * 1 ≤ (2 : ℝ) ^ (-24 : ℤ) * M := mul_le_mul_of_nonneg_left hM (zpow_pos (by norm_num) _).le
    unfold planeErr cullErr32
    rw [mul_one]
    linarith
  have k := fun v => c109_frustum std32 hΩ hP (hb v)
  have mem : ∀ v r, (v, r) ∈ l ↔ v ∈ vs ∧ frustumF binary32 (planes.map (planeR binary32)) (boxR3 binary32 (box v)) = r ∧ r ≠ .Out := by
    intro v r
    rw [h2.mem_iff]
    simp only [notOut, List.mem_filterMap]
    constructor
    · rintro ⟨w, hw, e⟩
      split at e
      · cases e
      · rename_i hne
        cases e
        exact ⟨hw, rfl, hne⟩
    · rintro ⟨hv, rfl, hne⟩
      exact ⟨v, hv, if_neg hne⟩
  refine ⟨l, h1, ((h2.map Prod.fst).subperm).trans (notOut_sublist _ vs).subperm, ?_, ?_, ?_⟩
  · rintro v hv ⟨p, hp, hin⟩
    refine ⟨_, (mem _ _).2 ⟨hv, rfl, fun ho => ?_⟩⟩
    obtain ⟨P, hP', hlt⟩ := (k v).1.1 ho
    have := hlt p hp
    have := hin P hP'
    linarith
  · intro v hin p hp P hP'
    have := (k v).1.2 ((mem _ _).1 hin).2.1 P hP' p hp
    linarith
  · intro v r hvr
    obtain ⟨-, e, hne⟩ := (mem _ _).1 hvr
    refine ⟨hne, fun P hP' => ?_⟩
    by_contra hc
    push Not at hc
    exact hne (e ▸ (k v).2.1 ⟨P, hP', fun p hp => by have := hc p hp; linarith⟩)

/-- A case of the theorem: of two cubes, one at 1 and one at 20, in a tree in `f32`, the culling query with that camera returns the first and not the second. -/
theorem c120_example_culling (rng : Nat → Nat) : ∃ (hb : ∀ n : ℤ, n ∈ [1, 20] → FitsB binary32 32 (cubeAt n)) (s : Dbvt { n : ℤ // n ∈ [1, 20] } Box32_3) (l : List ({ n : ℤ // n ∈ [1, 20] } × Relation)),
    s.query (fOps3 (fun v => (⟨boxR3 binary32 (cubeAt v.1), boxR3_valid (hb v.1 v.2).1⟩ : Box32_3)) (fun v => fat3_32 ⟨z32, z32, z32⟩ ⟨le_rfl, le_rfl, le_rfl⟩ ⟨boxR3 binary32 (cubeAt v.1), boxR3_valid (hb v.1 v.2).1⟩)
        (fun _ => ()) (fun _ _ => false) (fun _ _ => ()) (fun _ _ => ()) ())
      (pureVisitor fun b _ => if frustumF binary32 (camera.map (planeR binary32)) b.1 = .Out then none else some (frustumF binary32 (camera.map (planeR binary32)) b.1)) () = .ok l ∧
    (∃ r, (⟨1, by simp⟩, r) ∈ l) ∧ ∀ r, (⟨20, by simp⟩, r) ∉ l := by
  have r0 := rep_zero (R := binary32)
  have r1 := rep_one (R := binary32)
  have rm1 : Rep binary32 (-1) := by simpa using rep32_int24 (n := -1) (by norm_num)
  have rm8 : Rep binary32 (-8) := by simpa using rep32_int24 (n := -8) (by norm_num)
  have r2 : Rep binary32 (1 + 1) := by have := rep32_int24 (n := 2) (by norm_num); norm_num at this ⊢; exact this
  have r20 : Rep binary32 20 := by simpa using rep32_int24 (n := 20) (by norm_num)
  have r21 : Rep binary32 (20 + 1) := by have := rep32_int24 (n := 21) (by norm_num); norm_num at this ⊢; exact this
  have hb : ∀ n : ℤ, n ∈ [1, 20] → FitsB binary32 32 (cubeAt n) := by
    intro n hn
    have hn : n = 1 ∨ n = 20 := by simpa using hn
    rcases hn with rfl | rfl
    · refine ⟨⟨by norm_num [cubeAt], by norm_num [cubeAt], by norm_num [cubeAt]⟩, ⟨⟨by simpa [cubeAt] using r1, r0, r0⟩, ?_⟩, ⟨by simpa [cubeAt] using r2, r1, r1⟩, ?_⟩ <;> norm_num [Sz3, cubeAt]
    · refine ⟨⟨by norm_num [cubeAt], by norm_num [cubeAt], by norm_num [cubeAt]⟩, ⟨⟨by simpa [cubeAt] using r20, r0, r0⟩, ?_⟩, ⟨by simpa [cubeAt] using r21, r1, r1⟩, ?_⟩ <;> norm_num [Sz3, cubeAt]
  have hP : ∀ P ∈ camera, FitsP binary32 1 P := by
    intro P hP
    simp only [camera, List.mem_cons, List.not_mem_nil, or_false] at hP
    rcases hP with rfl | rfl | rfl | rfl | rfl | rfl <;> exact ⟨⟨by assumption, by assumption, by assumption⟩, by norm_num [Sz3], rm8⟩
  obtain ⟨s, -, hq⟩ := c120_culling (M := 32) (by norm_num) (by norm_num) (fun v : { n : ℤ // n ∈ [1, 20] } => cubeAt v.1) (fun v => hb v.1 v.2) ⟨z32, z32, z32⟩ ⟨le_rfl, le_rfl, le_rfl⟩
    (fun _ => ()) (fun _ _ => false) (fun _ _ => ()) (fun _ _ => ()) () [⟨1, by simp⟩, ⟨20, by simp⟩] (by simp) rng
  obtain ⟨l, h1, -, h2, -, h3⟩ := hq camera hP
  refine ⟨hb, s, l, h1, h2 _ (by simp) ⟨⟨1, 0, 0⟩, ?_, ?_⟩, fun r hr => ?_⟩
  · norm_num [Aabb3.Mem, cubeAt]
  · intro P hP
    simp only [camera, List.mem_cons, List.not_mem_nil, or_false] at hP
    rcases hP with rfl | rfl | rfl | rfl | rfl | rfl <;> norm_num [Plane.gap, cullErr32]
  · obtain ⟨p, hp, hg⟩ := (h3 _ r hr).2 ⟨⟨-1, 0, 0⟩, -8⟩ (by simp [camera])
    have := hp.1.1
    simp only [cubeAt] at this
    norm_num [Plane.gap, cullErr32] at hg this
    linarith

/-- The rounding error in `f32`. -/
def rayErr32 (M : ℝ) : ℝ := 10 * ((2 : ℝ) ^ (-24 : ℤ) * M)
/-- The least absolute value of a component of a direction that is not zero: `2^-60`. -/
def dirMin32 : ℝ := (2 : ℝ) ^ (-60 : ℤ)

theorem rayErr_le32 (hM : 1 ≤ M) : rayErr ((2 : ℝ) ^ (-24 : ℤ)) ((2 : ℝ) ^ (-150 : ℤ)) M ≤ rayErr32 M := by
  have q1 : (2 : ℝ) ^ (-150 : ℤ) ≤ (2 : ℝ) ^ (-28 : ℤ) := zpow_le_zpow_right₀ (by norm_num) (by norm_num)
  have q2 : (2 : ℝ) ^ (-24 : ℤ) = 16 * (2 : ℝ) ^ (-28 : ℤ) := by norm_num
  have q3 : (0 : ℝ) < (2 : ℝ) ^ (-28 : ℤ) := zpow_pos (by norm_num) _
  have q4 : M * (2 : ℝ) ^ (-150 : ℤ) ≤ M * (2 : ℝ) ^ (-28 : ℤ) := mul_le_mul_of_nonneg_left q1 (by linarith)
  have q5 : (2 : ℝ) ^ (-28 : ℤ) * 1 ≤ (2 : ℝ) ^ (-28 : ℤ) * M := mul_le_mul_of_nonneg_left hM q3.le
  unfold rayErr rayErr32
  rw [q2]
  linarith
theorem dirMin_pos32 : 0 < dirMin32 := zpow_pos (by norm_num) _
theorem dirMin_le32 : dirMin32 ≤ 1 := by
  have : (2 : ℝ) ^ (-60 : ℤ) ≤ (2 : ℝ) ^ (0 : ℤ) := zpow_le_zpow_right₀ (by norm_num) (by norm_num)
  simpa [dirMin32] using this
theorem ray32_omega2 (hM' : M ≤ 2 ^ 60) : 4 * M / dirMin32 ≤ (2 : ℝ) ^ (126 : ℤ) := by
  rw [div_le_iff₀ dirMin_pos32]
  have e : (2 : ℝ) ^ (126 : ℤ) * dirMin32 = (2 : ℝ) ^ (66 : ℤ) := by
    unfold dirMin32
    rw [← zpow_add₀ (by norm_num)]
    norm_num
  rw [e]
  have h1 : 4 * M ≤ 2 ^ 2 * 2 ^ 60 := by linarith
  rw [← pow_add] at h1
  refine h1.trans ?_
  rw [← zpow_natCast]
  exact zpow_le_zpow_right₀ (by norm_num) (by norm_num)
theorem ray32_omega1 (hM : 1 ≤ M) (hM' : M ≤ 2 ^ 60) : 4 * M ≤ (2 : ℝ) ^ (126 : ℤ) := by
  refine le_trans ?_ (ray32_omega2 hM')
  rw [le_div_iff₀ dirMin_pos32]
  have : 4 * M * dirMin32 ≤ 4 * M * 1 := mul_le_mul_of_nonneg_left dirMin_le32 (by linarith)
  linarith

/-- **C120 (C110), 2D in `f32`**: the error is `10 * 2^-24 * M`. -/
theorem c120_ray2 (hM : 1 ≤ M) (hM' : M ≤ 2 ^ 60) {o d : V2 ℝ} {b : Aabb2 ℝ} (hf : FitsRay2 binary32 M dirMin32 o d b) :
    (intersectsF2 binary32 (vecR2 binary32 o) (vecR2 binary32 d) (boxR2 binary32 b) = true → ∃ t, 0 ≤ t ∧ Around2 b (rayErr32 M) (along2 o d t)) ∧
    ((∃ t, 0 ≤ t ∧ Around2 b (-rayErr32 M) (along2 o d t)) → intersectsF2 binary32 (vecR2 binary32 o) (vecR2 binary32 d) (boxR2 binary32 b) = true) ∧
    (intersectsF2 binary32 (vecR2 binary32 o) (vecR2 binary32 d) (boxR2 binary32 b) = (intersectionF2 binary32 (vecR2 binary32 o) (vecR2 binary32 d) (boxR2 binary32 b)).isSome) ∧
    ∀ p, intersectionF2 binary32 (vecR2 binary32 o) (vecR2 binary32 d) (boxR2 binary32 b) = some p → ∃ q, p = vecR2 binary32 q ∧ Rp binary32 q ∧ Struck2 (rayErr32 M) o d b q := by
  have hE := rayErr_le32 hM
  obtain ⟨h1, h2, h3, h4⟩ := c110_ray2 std32 hM dirMin_pos32 (zpow_pos (by norm_num) _) (ray32_omega1 hM hM') (ray32_omega2 hM') hf
  refine ⟨fun q => ?_, fun ⟨t, t0, ht⟩ => h2 ⟨t, t0, ht.mono (neg_le_neg hE)⟩, h3, fun p hp => ?_⟩
  · obtain ⟨t, t0, ht⟩ := h1 q
    exact ⟨t, t0, ht.mono hE⟩
  · obtain ⟨q, t, e, rq, t0, hc, ha, hor⟩ := h4 p hp
    refine ⟨q, e, rq, t, t0, ⟨hc.1.trans hE, hc.2.trans hE⟩, ha.mono hE, ?_⟩
    rcases hor with hor | ⟨ho, hor⟩
    · exact Or.inl fun s hs hn => hor s hs (hn.mono (neg_le_neg hE))
    · exact Or.inr ⟨ho.mono hE, fun s hs hn => hor s hs (hn.mono (neg_le_neg hE))⟩
/-- **C120 (C110), 3D in `f32`.** -/
theorem c120_ray3 (hM : 1 ≤ M) (hM' : M ≤ 2 ^ 60) (nz : V3 Bool) {o d : V3 ℝ} {b : Aabb3 ℝ} (hf : FitsRay3 binary32 M dirMin32 o d b) :
    (intersectsN3 binary32 nz (vecR binary32 o) (vecR binary32 d) (boxR3 binary32 b) = true → ∃ t, 0 ≤ t ∧ Around3 b (rayErr32 M) (along3 o d t)) ∧
    ((∃ t, 0 ≤ t ∧ Around3 b (-rayErr32 M) (along3 o d t)) → intersectsN3 binary32 nz (vecR binary32 o) (vecR binary32 d) (boxR3 binary32 b) = true) ∧
    (intersectsN3 binary32 nz (vecR binary32 o) (vecR binary32 d) (boxR3 binary32 b) = (intersectionN3 binary32 nz (vecR binary32 o) (vecR binary32 d) (boxR3 binary32 b)).isSome) ∧
    ∀ p, intersectionN3 binary32 nz (vecR binary32 o) (vecR binary32 d) (boxR3 binary32 b) = some p → ∃ q, p = someV (vecR binary32 q) ∧ Rep3 binary32 q ∧ Struck3 (rayErr32 M) o d b q := by
  have hE := rayErr_le32 hM
  obtain ⟨h1, h2, h3, h4⟩ := c110_ray3 std32 hM dirMin_pos32 dirMin_le32 (zpow_pos (by norm_num) _) (ray32_omega2 hM') nz hf
  refine ⟨fun q => ?_, fun ⟨t, t0, ht⟩ => h2 ⟨t, t0, ht.mono (neg_le_neg hE)⟩, h3, fun p hp => ?_⟩
  · obtain ⟨t, t0, ht⟩ := h1 q
    exact ⟨t, t0, ht.mono hE⟩
  · obtain ⟨q, t, e, rq, t0, hc, ha, hor⟩ := h4 p hp
    refine ⟨q, e, rq, t, t0, ⟨hc.1.trans hE, hc.2.1.trans hE, hc.2.2.trans hE⟩, ha.mono hE, ?_⟩
    rcases hor with hor | ⟨ho, hor⟩
    · exact Or.inl fun s hs hn => hor s hs (hn.mono (neg_le_neg hE))
    · exact Or.inr ⟨ho.mono hE, fun s hs hn => hor s hs (hn.mono (neg_le_neg hE))⟩

/-- A valid box with `f32` coordinates of at most `M`. -/
structure Box2M32 (M : ℝ) where
  box : Aabb2 ℝ
  rp : RpBox binary32 M box
  valid : box.Valid
/-- The box in `f32`. -/
def Box2M32.f32 (b : Box2M32 M) : Box32_2 := ⟨boxR2 binary32 b.box, boxR2_valid b.valid⟩
/-- A box with `f32` coordinates of at most `M` that is not flat. -/
structure Box3M32 (M : ℝ) where
  box : Aabb3 ℝ
  fits : FitsB binary32 M box
  solid : Solid box
def Box3M32.f32 (b : Box3M32 M) : Solid32 := ⟨boxR3 binary32 b.box, boxR3_solid b.fits b.solid⟩

/-- The ray has `f32` coordinates of at most `M` and an admissible direction. -/
structure Ray2M32 (M : ℝ) (o d : V2 ℝ) : Prop where
  ro : Rp binary32 o
  so : Sz M o
  dx : DirOk binary32 dirMin32 d.x
  dy : DirOk binary32 dirMin32 d.y
  ne : d.x ≠ 0 ∨ d.y ≠ 0
structure Ray3M32 (M : ℝ) (o d : V3 ℝ) : Prop where
  ro : Rep3 binary32 o
  so : Sz3 M o
  dx : DirOk binary32 dirMin32 d.x
  dy : DirOk binary32 dirMin32 d.y
  dz : DirOk binary32 dirMin32 d.z
  ne : d.x ≠ 0 ∨ d.y ≠ 0 ∨ d.z ≠ 0

/-- **C120 (C110), a ray query in `f32`** (2D) on a tree of at most 256 boxes, with any margin: every value through whose box, shrunk by the rounding error, the ray passes is returned; every returned value is stored,
and its point is, up to the rounding error, the one where the ray enters (or leaves) its box. -/
theorem c120_ray_tree2 {V S : Type} (hM : 1 ≤ M) (hM' : M ≤ 2 ^ 60) (box : V → Box2M32 M) (m : V2 F32) (hm : z32 ≤ m.x ∧ z32 ≤ m.y) (area : Aabb2 F32 → S) (lt : S → S → Bool) (sub div : S → S → S) (im : S)
    (vs : List V) (hvs : vs.length ≤ 256) (rng : Nat → Nat) :
    ∃ s : Dbvt V Box32_2, s.values.map Prod.snd = vs ∧ ∀ o d : V2 ℝ, Ray2M32 M o d →
      ∃ l, s.query (fOps2 (fun v => (box v).f32) (fun v => fat2_32 m hm (box v).f32) area lt sub div im) (continuousVisitor fun b => intersectionF2 binary32 (vecR2 binary32 o) (vecR2 binary32 d) b.1) () = .ok l ∧
        (l.map Prod.fst).Subperm vs ∧
        (∀ v ∈ vs, (∃ t, 0 ≤ t ∧ Around2 (box v).box (-rayErr32 M) (along2 o d t)) → ∃ p, (v, p) ∈ l) ∧
        ∀ v p, (v, p) ∈ l → v ∈ vs ∧ ∃ q, p = vecR2 binary32 q ∧ Rp binary32 q ∧ Struck2 (rayErr32 M) o d (box v).box q := by
  obtain ⟨s, hv, -, hq, -, -⟩ := c120_boxes2 (fun v => (box v).f32) m hm area lt sub div im vs hvs rng
  refine ⟨s, hv, fun o d hr => ?_⟩
  obtain ⟨l, h1, h2⟩ := hq (vecR2 binary32 o) (vecR2 binary32 d)
  have k := fun v => c120_ray2 hM hM' (⟨hr.ro, hr.so, hr.dx, hr.dy, hr.ne, (box v).rp, (box v).valid⟩ : FitsRay2 binary32 M dirMin32 o d (box v).box)
  have mem : ∀ v p, (v, p) ∈ l ↔ v ∈ vs ∧ intersectionF2 binary32 (vecR2 binary32 o) (vecR2 binary32 d) (boxR2 binary32 (box v).box) = some p := by
    intro v p
    rw [h2.mem_iff, List.mem_filterMap]
    constructor
    · rintro ⟨w, hw, e⟩
      obtain ⟨q, hq, e⟩ := Option.map_eq_some_iff.1 e
      cases e
      exact ⟨hw, hq⟩
    · rintro ⟨hv, e⟩
      exact ⟨v, hv, by rw [show intersectionF2 binary32 (vecR2 binary32 o) (vecR2 binary32 d) (box v).f32.1 = some p from e]; rfl⟩
  refine ⟨l, h1, ?_, ?_, ?_⟩
  · have e : (vs.filterMap fun v => (intersectionF2 binary32 (vecR2 binary32 o) (vecR2 binary32 d) (box v).f32.1).map fun p => (v, p)).map Prod.fst
        = vs.filter fun v => (intersectionF2 binary32 (vecR2 binary32 o) (vecR2 binary32 d) (box v).f32.1).isSome := by
      clear h1 h2 mem hq hv hvs
      induction vs with
      | nil => rfl
      | cons a vs ih =>
        cases hc : intersectionF2 binary32 (vecR2 binary32 o) (vecR2 binary32 d) (box a).f32.1 <;> simp_all
    have := h2.map Prod.fst
    rw [e] at this
    exact this.subperm.trans List.filter_sublist.subperm
  · intro v hv ht
    have a := (k v).2.1 ht
    rw [(k v).2.2.1] at a
    obtain ⟨p, hp⟩ := Option.isSome_iff_exists.1 a
    exact ⟨p, (mem v p).2 ⟨hv, hp⟩⟩
  · intro v p hvp
    obtain ⟨a, b⟩ := (mem v p).1 hvp
    exact ⟨a, (k v).2.2.2 p b⟩

/-- **C120 (C110), a ray query in `f32`** (3D). -/
theorem c120_ray_tree3 {V S : Type} (hM : 1 ≤ M) (hM' : M ≤ 2 ^ 60) (box : V → Box3M32 M) (m : V3 F32) (hm : z32 ≤ m.x ∧ z32 ≤ m.y ∧ z32 ≤ m.z) (area : Aabb3 F32 → S) (lt : S → S → Bool) (sub div : S → S → S) (im : S)
    (vs : List V) (hvs : vs.length ≤ 256) (rng : Nat → Nat) :
    ∃ s : Dbvt V Solid32, s.values.map Prod.snd = vs ∧ ∀ (nz : V3 Bool) (o d : V3 ℝ), Ray3M32 M o d →
      ∃ l, s.query (solidOps32 (fun v => (box v).f32) m hm area lt sub div im) (continuousVisitor fun b => intersectionN3 binary32 nz (vecR binary32 o) (vecR binary32 d) b.1) () = .ok l ∧
        (l.map Prod.fst).Subperm vs ∧
        (∀ v ∈ vs, (∃ t, 0 ≤ t ∧ Around3 (box v).box (-rayErr32 M) (along3 o d t)) → ∃ p, (v, p) ∈ l) ∧
        ∀ v p, (v, p) ∈ l → v ∈ vs ∧ ∃ q, p = someV (vecR binary32 q) ∧ Rep3 binary32 q ∧ Struck3 (rayErr32 M) o d (box v).box q := by
  obtain ⟨s, hv, -, hq⟩ := c120_rays3_built (fun v => (box v).f32) m hm area lt sub div im vs hvs rng
  refine ⟨s, hv, fun nz o d hr => ?_⟩
  obtain ⟨l, h1, h2⟩ := hq nz (vecR binary32 o) (vecR binary32 d) ⟨num_fin hr.ro.1, num_fin hr.ro.2.1, num_fin hr.ro.2.2⟩ ⟨num_fin hr.dx.1, num_fin hr.dy.1, num_fin hr.dz.1⟩
  have k := fun v => c120_ray3 hM hM' nz (⟨hr.ro, hr.so, hr.dx, hr.dy, hr.dz, hr.ne, (box v).fits, (box v).solid⟩ : FitsRay3 binary32 M dirMin32 o d (box v).box)
  have mem : ∀ v p, (v, p) ∈ l ↔ v ∈ vs ∧ intersectionN3 binary32 nz (vecR binary32 o) (vecR binary32 d) (boxR3 binary32 (box v).box) = some p := by
    intro v p
    rw [h2.mem_iff, List.mem_filterMap]
    constructor
    · rintro ⟨w, hw, e⟩
      obtain ⟨q, hq, e⟩ := Option.map_eq_some_iff.1 e
      cases e
      exact ⟨hw, hq⟩
    · rintro ⟨hv, e⟩
      exact ⟨v, hv, by rw [show intersectionN3 binary32 nz (vecR binary32 o) (vecR binary32 d) (box v).f32.1 = some p from e]; rfl⟩
  refine ⟨l, h1, ?_, ?_, ?_⟩
  · have e : (vs.filterMap fun v => (intersectionN3 binary32 nz (vecR binary32 o) (vecR binary32 d) (box v).f32.1).map fun p => (v, p)).map Prod.fst
        = vs.filter fun v => (intersectionN3 binary32 nz (vecR binary32 o) (vecR binary32 d) (box v).f32.1).isSome := by
      clear h1 h2 mem hq hv hvs
      induction vs with
      | nil => rfl
      | cons a vs ih =>
        cases hc : intersectionN3 binary32 nz (vecR binary32 o) (vecR binary32 d) (box a).f32.1 <;> simp_all
    have := h2.map Prod.fst
    rw [e] at this
    exact this.subperm.trans List.filter_sublist.subperm
  · intro v hv ht
    have a := (k v).2.1 ht
    rw [(k v).2.2.1] at a
    obtain ⟨p, hp⟩ := Option.isSome_iff_exists.1 a
    exact ⟨p, (mem v p).2 ⟨hv, hp⟩⟩
  · intro v p hvp
    obtain ⟨a, b⟩ := (mem v p).1 hvp
    exact ⟨a, (k v).2.2.2 p b⟩

theorem squareAt_fits32 {n : ℤ} (h : n ∈ [0, 4]) : RpBox binary32 8 (squareAt n) ∧ (squareAt n).Valid := by
  have hn : n = 0 ∨ n = 4 := by simpa using h
  have r0 := rep_zero (R := binary32)
  have r1 := rep_one (R := binary32)
  have r2 : Rep binary32 2 := by simpa using rep32_int24 (n := 2) (by norm_num)
  have r3 : Rep binary32 3 := by simpa using rep32_int24 (n := 3) (by norm_num)
  have r4 : Rep binary32 4 := by simpa using rep32_int24 (n := 4) (by norm_num)
  have r5 : Rep binary32 (4 + 1) := by have := rep32_int24 (n := 5) (by norm_num); norm_num at this ⊢; exact this
  rcases hn with rfl | rfl
  · refine ⟨⟨⟨⟨r2, by simpa [squareAt] using r0⟩, ?_⟩, ⟨r3, by simpa [squareAt] using r1⟩, ?_⟩, ?_⟩ <;> norm_num [Sz, squareAt, Aabb2.Valid]
  · refine ⟨⟨⟨⟨r2, by simpa [squareAt] using r4⟩, ?_⟩, ⟨r3, by simpa [squareAt] using r5⟩, ?_⟩, ?_⟩ <;> norm_num [Sz, squareAt, Aabb2.Valid]
/-- A case of the theorems: the ray from the origin in the direction `(1, 1/4)` in `f32` on a tree of two squares hits the lower one and not the upper one. -/
theorem c120_example2 (rng : Nat → Nat) : ∃ (s : Dbvt { n : ℤ // n ∈ [0, 4] } Box32_2) (l : List ({ n : ℤ // n ∈ [0, 4] } × V2 F32)),
    s.query (fOps2 (fun v => (⟨squareAt v.1, (squareAt_fits32 v.2).1, (squareAt_fits32 v.2).2⟩ : Box2M32 8).f32)
        (fun v => fat2_32 ⟨z32, z32⟩ ⟨le_rfl, le_rfl⟩ (⟨squareAt v.1, (squareAt_fits32 v.2).1, (squareAt_fits32 v.2).2⟩ : Box2M32 8).f32) (fun _ => ()) (fun _ _ => false) (fun _ _ => ()) (fun _ _ => ()) ())
      (continuousVisitor fun b => intersectionF2 binary32 (vecR2 binary32 ⟨0, 0⟩) (vecR2 binary32 ⟨1, 1 / 4⟩) b.1) () = .ok l ∧
    (∃ p, (⟨0, by simp⟩, p) ∈ l) ∧ ∀ p, (⟨4, by simp⟩, p) ∉ l := by
  have r0 := rep_zero (R := binary32)
  have r1 := rep_one (R := binary32)
  have r4 : Rep binary32 (1 / 4) := rep_of_rep32 ⟨1, -2, by norm_num, by norm_num, by norm_num, by norm_num⟩
  have hdm : dirMin32 ≤ 1 / 4 := by
    unfold dirMin32
    norm_num
  obtain ⟨s, -, hq⟩ := c120_ray_tree2 (M := 8) (by norm_num) (by norm_num) (fun v : { n : ℤ // n ∈ [0, 4] } => ⟨squareAt v.1, (squareAt_fits32 v.2).1, (squareAt_fits32 v.2).2⟩)
    ⟨z32, z32⟩ ⟨le_rfl, le_rfl⟩ (fun _ => ()) (fun _ _ => false) (fun _ _ => ()) (fun _ _ => ()) () [⟨0, by simp⟩, ⟨4, by simp⟩] (by simp) rng
  obtain ⟨l, h1, -, h2, h3⟩ := hq ⟨0, 0⟩ ⟨1, 1 / 4⟩ ⟨⟨r0, r0⟩, by norm_num [Sz], ⟨r1, by norm_num, Or.inr (by rw [abs_one]; exact dirMin_le32)⟩,
    ⟨r4, by norm_num, Or.inr (by rw [abs_of_pos (by norm_num)]; exact hdm)⟩, Or.inl one_ne_zero⟩
  refine ⟨s, l, h1, h2 _ (by simp) ⟨5 / 2, by norm_num, ?_⟩, fun p hp => ?_⟩
  · norm_num [Around2, along2, squareAt, rayErr32]
  · obtain ⟨-, q, -, -, t, -, -, ha, -⟩ := h3 _ p hp
    have a := ha.1.2
    have b := ha.2.1
    norm_num [along2, squareAt, rayErr32] at a b
    linarith
/-- A case in 3D with a direction along an axis, so that the code computes with infinities: the ray from `(0, 1/2, 1/2)` in the direction of `x` hits the cube `[2, 3] × [0, 1] × [0, 1]` in `f32`, and the
returned point is that of the exact ray at a parameter within the rounding error of 2. -/
theorem c120_example3 (nz : V3 Bool) : ∃ q t, intersectionN3 binary32 nz (vecR binary32 ⟨0, 1 / 2, 1 / 2⟩) (vecR binary32 ⟨1, 0, 0⟩) (boxR3 binary32 ⟨⟨2, 0, 0⟩, ⟨3, 1, 1⟩⟩) = some (someV (vecR binary32 q)) ∧
    |t - 2| ≤ rayErr32 8 ∧ Close3 (rayErr32 8) q ⟨t, 1 / 2, 1 / 2⟩ := by
  have r0 := rep_zero (R := binary32)
  have r1 := rep_one (R := binary32)
  have r2 : Rep binary32 2 := by simpa using rep32_int24 (n := 2) (by norm_num)
  have r3 : Rep binary32 3 := by simpa using rep32_int24 (n := 3) (by norm_num)
  have rh : Rep binary32 (1 / 2) := rep_of_rep32 ⟨1, -1, by norm_num, by norm_num, by norm_num, by norm_num⟩
  have hd0 : DirOk binary32 dirMin32 0 := ⟨r0, by norm_num, Or.inl rfl⟩
  have hf : FitsRay3 binary32 8 dirMin32 ⟨0, 1 / 2, 1 / 2⟩ ⟨1, 0, 0⟩ ⟨⟨2, 0, 0⟩, ⟨3, 1, 1⟩⟩ :=
    ⟨⟨r0, rh, rh⟩, by norm_num [Sz3], ⟨r1, by norm_num, Or.inr (by rw [abs_one]; exact dirMin_le32)⟩, hd0, hd0, Or.inl one_ne_zero,
      ⟨⟨by norm_num, by norm_num, by norm_num⟩, ⟨⟨r2, r0, r0⟩, by norm_num [Sz3]⟩, ⟨r3, r1, r1⟩, by norm_num [Sz3]⟩, by norm_num, by norm_num, by norm_num⟩
  obtain ⟨-, h2, h3, h4⟩ := c120_ray3 (M := 8) (by norm_num) (by norm_num) nz hf
  have hs := h2 ⟨5 / 2, by norm_num, by norm_num [Around3, along3, rayErr32]⟩
  rw [h3] at hs
  obtain ⟨p, hp⟩ := Option.isSome_iff_exists.1 hs
  obtain ⟨q, rfl, -, t, t0, hc, ha, hor⟩ := h4 p hp
  have hcl : Close3 (rayErr32 8) q ⟨t, 1 / 2, 1 / 2⟩ := by
    have e : along3 ⟨0, 1 / 2, 1 / 2⟩ ⟨1, 0, 0⟩ t = (⟨t, 1 / 2, 1 / 2⟩ : V3 ℝ) := by simp [along3]
    rwa [e] at hc
  refine ⟨q, t, hp, ?_, hcl⟩
  have hδ : 0 < rayErr32 8 ∧ rayErr32 8 < 1 / 4 := by norm_num [rayErr32]
  rw [abs_le]
  constructor
  · have := ha.1.1
    simp only [along3] at this
    linarith
  · by_contra hc'
    push Not at hc'
    rcases hor with hor | ⟨ho, -⟩
    · refine hor (2 + rayErr32 8) (by linarith) ⟨⟨?_, ?_⟩, ⟨?_, ?_⟩, ?_, ?_⟩ <;> simp only [along3] <;> linarith [hδ.1, hδ.2]
    · have := ho.1.1
      simp only at this
      linarith [hδ.2]

/-- `Union`, `src/volume/aabb/aabb2.rs:127-129`: the least box around both. -/
def Box2M32.union (a b : Box2M32 M) : Box2M32 M where
  box := a.box.union b.box
  rp := (a.rp.grow ⟨b.rp.1.1, b.rp.1.2⟩).grow ⟨b.rp.2.1, b.rp.2.2⟩
  valid := (c25_union_contains2 a.box b.box).1
/-- It is the union computed in `f32`. -/
theorem union_f32 (a b : Box2M32 M) : (a.union b).f32.1 = a.f32.1.union b.f32.1 := by
  show boxR binary32 ((a.box.grow b.box.min).grow b.box.max) = ((boxR binary32 a.box).grow (toV2 binary32 b.box.min)).grow (toV2 binary32 b.box.max)
  rw [boxR_grow, boxR_grow]
/-- A tree of such boxes: every test is made in `f32`. -/
def opsM2_32 {V S : Type} (bound fat : V → Box2M32 M) (area : Aabb2 F32 → S) (lt : S → S → Bool) (sub div : S → S → S) (im : S) : Ops V (Box2M32 M) S where
  bound := bound
  fat := fat
  union := Box2M32.union
  contains a b := a.f32.1.contains b.f32.1
  area a := area a.f32.1
  lt := lt
  sub := sub
  div := div
  improvement := im
theorem opsM2_encloses32 {V S : Type} (bound fat : V → Box2M32 M) (area : Aabb2 F32 → S) (lt : S → S → Bool) (sub div : S → S → S) (im : S) :
    Encloses (opsM2_32 bound fat area lt sub div im) (fun a b => a.f32.1.contains b.f32.1 = true) where
  trans := c26_order2.2.1 _ _ _
  union_left a b := by
    show (a.union b).f32.1.contains _ = true
    rw [union_f32]; exact (c25_union_contains2 a.f32.1 b.f32.1).2.1
  union_right a b := by
    show (a.union b).f32.1.contains _ = true
    rw [union_f32]; exact (c25_union_contains2 a.f32.1 b.f32.1).2.2
  contains h := h
theorem contains_real2_32 {a b : Box2M32 M} (h : a.f32.1.contains b.f32.1 = true) : a.box.contains b.box = true := by
  obtain ⟨⟨x1, x2⟩, y1, y2⟩ := contains_iff2.1 h
  exact contains_iff2.2 ⟨⟨(num_le a.rp.1.1.1 b.rp.1.1.1).1 x1, (num_le b.rp.2.1.1 a.rp.2.1.1).1 x2⟩, (num_le a.rp.1.1.2 b.rp.1.1.2).1 y1, (num_le b.rp.2.1.2 a.rp.2.1.2).1 y2⟩

/-- `query_ray_closest` in `f32` (2D), `src/dbvt/util.rs:86-114` -/
def queryRayClosest32_2 {V S : Type} (O : Ops V (Box2M32 M) S) (s : Dbvt V (Box2M32 M)) (o d : V2 ℝ) : Res (Option (V × V2 F32)) :=
  queryRayClosest O s (fun b => intersectionF2 binary32 (vecR2 binary32 o) (vecR2 binary32 d) b.f32.1) (rayTF2 binary32 (vecR2 binary32 o) (vecR2 binary32 d)) (fun a b => decide (a < b)) binary32.inf

/-- The error of a comparison of two distances in `f32`. -/
def distErr32 (M : ℝ) : ℝ := 512 * ((2 : ℝ) ^ (-24 : ℤ) * M)
theorem distErr_le32 (hM : 1 ≤ M) : 2 * distErr ((2 : ℝ) ^ (-24 : ℤ)) ((2 : ℝ) ^ (-150 : ℤ)) M ≤ distErr32 M := by
  have q1 : (2 : ℝ) ^ (-150 : ℤ) ≤ (2 : ℝ) ^ (-28 : ℤ) := zpow_le_zpow_right₀ (by norm_num) (by norm_num)
  have q2 : (2 : ℝ) ^ (-24 : ℤ) = 16 * (2 : ℝ) ^ (-28 : ℤ) := by norm_num
  have q3 : (0 : ℝ) < (2 : ℝ) ^ (-28 : ℤ) := zpow_pos (by norm_num) _
  have q4 : M * (2 : ℝ) ^ (-150 : ℤ) ≤ M * (2 : ℝ) ^ (-28 : ℤ) := mul_le_mul_of_nonneg_left q1 (by linarith)
  have q5 : (2 : ℝ) ^ (-28 : ℤ) * 1 ≤ (2 : ℝ) ^ (-28 : ℤ) * M := mul_le_mul_of_nonneg_left hM q3.le
  unfold distErr distErr32
  rw [q2]
  linarith
theorem ray32_omega64 (hM : 1 ≤ M) (hM' : M ≤ 2 ^ 60) : 64 * M ≤ (2 : ℝ) ^ (126 : ℤ) := by
  have h1 : 64 * M ≤ 2 ^ 6 * 2 ^ 60 := by linarith
  rw [← pow_add] at h1
  refine h1.trans ?_
  rw [← zpow_natCast]
  exact zpow_le_zpow_right₀ (by norm_num) (by norm_num)

/-- **C121 (C111), 2D.** On every tree that is refitted and up to date, for every ray that starts in no branch volume: if nothing is returned, no ray passes through a stored box shrunk by the rounding error; a
returned value is stored, its point is, up to rounding, where the ray enters its box, at a parameter `t`, and no stored box that does not hold the origin is passed, shrunk by the rounding error, earlier by
more than the error of the distances. -/
theorem c121_closest2_partial {V S : Type} (hM : 1 ≤ M) (hM' : M ≤ 2 ^ 60) (bound fat : V → Box2M32 M) (area : Aabb2 F32 → S) (lt : S → S → Bool) (sub div : S → S → S) (im : S)
    (hfat : ∀ v, (fat v).f32.1.contains (bound v).f32.1 = true) {h : Hist V} {s : Dbvt V (Box2M32 M)} (he : Exec (opsM2_32 bound fat area lt sub div im) h s) (hd : Disciplined (opsM2_32 bound fat area lt sub div im) h)
    (hu : UpToDate (opsM2_32 bound fat area lt sub div im) h) (hr : Refitted! h) {n : Nat} (hh : s.height = .ok n) (hn : n ≤ 256) {o d : V2 ℝ} (hray : Ray2M32 M o d)
    (hout : ∀ (i : Nat) (b : Branch (Box2M32 M)), s.nodes[i]? = some (Node.branch b) → ¬ b.bound.box.Mem o) :
    ∃ res, queryRayClosest32_2 (opsM2_32 bound fat area lt sub div im) s o d = .ok res ∧
      (res = none → ∀ v ∈ s.values.map Prod.snd, ¬ ∃ t, 0 ≤ t ∧ Around2 (bound v).box (-rayErr32 M) (along2 o d t)) ∧
      ∀ v p, res = some (v, p) → v ∈ s.values.map Prod.snd ∧ ∃ q t, p = vecR2 binary32 q ∧ 0 ≤ t ∧ Close2 (rayErr32 M) q (along2 o d t) ∧ Around2 (bound v).box (rayErr32 M) (along2 o d t) ∧
        ∀ w ∈ s.values.map Prod.snd, ¬ (bound w).box.Mem o → ∀ r, 0 ≤ r → Around2 (bound w).box (-rayErr32 M) (along2 o d r) →
          t * (d.x * d.x + d.y * d.y) ≤ r * (d.x * d.x + d.y * d.y) + distErr32 M := by
  have hE := rayErr_le32 hM
  have fits : ∀ b : Box2M32 M, FitsRay2 binary32 M dirMin32 o d b.box := fun b => ⟨hray.ro, hray.so, hray.dx, hray.dy, hray.ne, b.rp, b.valid⟩
  have hit : ∀ (b : Box2M32 M) (p : V2 F32), intersectionF2 binary32 (vecR2 binary32 o) (vecR2 binary32 d) b.f32.1 = some p →
      ∃ l k t τ, HitT2 binary32 ((2 : ℝ) ^ (-24 : ℤ)) ((2 : ℝ) ^ (-150 : ℤ)) M o d b.box p l k t τ := fun b p hp =>
    hit_form2 std32 hM dirMin_pos32 (zpow_pos (by norm_num) _) (ray32_omega64 hM hM') (ray32_omega2 hM') (fits b) hp
  have ord : OrdOn (fun a b : F32 => decide (a < b)) (fun _ => True) :=
    ⟨fun _ _ h => decide_eq_false (not_lt.2 (of_decide_eq_true h).le), fun _ _ _ h1 h2 => decide_eq_false (not_lt.2 ((not_lt.1 (of_decide_eq_false h2)).trans (not_lt.1 (of_decide_eq_false h1))))⟩
  obtain ⟨res, h1, h2, h3⟩ := closest_generic (opsM2_32 bound fat area lt sub div im) s (fun b : Box2M32 M => intersectionF2 binary32 (vecR2 binary32 o) (vecR2 binary32 d) b.f32.1)
    (rayTF2 binary32 (vecR2 binary32 o) (vecR2 binary32 d)) (fun a b => decide (a < b)) ord (fun _ _ _ => trivial) (opsM2_encloses32 bound fat area lt sub div im) hfat he hd hu hr hh hn binary32.inf trivial
    (by
      intro v p hp
      obtain ⟨l, k, t, τ, ht⟩ := hit _ p hp
      rw [ht.dist]
      exact decide_eq_true (lt_of_le_of_ne (binary32.le_inf _) (num_fin ht.rτ).1))
    (by
      intro i b hb v hen p hp
      have hs := (c99_mono_ray2 binary32 (vecR2 binary32 o) (vecR2 binary32 d) (bound v).f32.2 hen).2 (by
        have : intersectionF2 binary32 (vecR2 binary32 o) (vecR2 binary32 d) (bound v).f32.1 = some p := hp
        rw [this]; rfl)
      obtain ⟨q, hq⟩ := Option.isSome_iff_exists.1 hs
      obtain ⟨l, k, t, τ, ht⟩ := hit _ p hp
      obtain ⟨l', k', t', τ', ht'⟩ := hit _ q hq
      refine ⟨q, hq, decide_eq_false ?_⟩
      rw [ht.dist, ht'.dist, numR_lt ht.rτ ht'.rτ, not_lt]
      exact hit_mono2 (bound v).f32.2 hen ht ht' (hout i b hb))
  have shr : ∀ v, (∃ t, 0 ≤ t ∧ Around2 (bound v).box (-rayErr32 M) (along2 o d t)) → ∃ p, intersectionF2 binary32 (vecR2 binary32 o) (vecR2 binary32 d) (bound v).f32.1 = some p := by
    intro v ht
    have k := c120_ray2 hM hM' (fits (bound v))
    have := k.2.1 ht
    rw [k.2.2.1] at this
    exact Option.isSome_iff_exists.1 this
  refine ⟨res, h1, ?_, ?_⟩
  · intro hnone v hv ht
    obtain ⟨e, hm, rfl⟩ := List.mem_map.1 hv
    obtain ⟨p, hp⟩ := shr _ ht
    have := h2.1 hnone e hm
    have : (some p : Option (V2 F32)) = none := hp.symm.trans this
    cases this
  · intro v p hvp
    obtain ⟨hv, hp, hmin⟩ := h3 v p hvp
    have hp : intersectionF2 binary32 (vecR2 binary32 o) (vecR2 binary32 d) (bound v).f32.1 = some p := hp
    obtain ⟨l, k, t, τ, ht⟩ := hit _ p hp
    refine ⟨hv, ?_⟩
    obtain ⟨q, eq, hq⟩ := ht.close
    refine ⟨q, t, eq, ht.nonneg, ⟨hq.1.trans hE, hq.2.trans hE⟩, ht.near.mono hE, ?_⟩
    intro w hw ho r hr0 hrw
    obtain ⟨e, hm, rfl⟩ := List.mem_map.1 hw
    obtain ⟨p', hp'⟩ := shr _ ⟨r, hr0, hrw⟩
    obtain ⟨l', k', t', τ', ht'⟩ := hit _ p' hp'
    have hcmp := of_decide_eq_false (hmin e hm p' hp')
    rw [ht.dist, ht'.dist, numR_lt ht'.rτ ht.rτ, not_lt] at hcmp
    have htr : t' ≤ r := by
      rw [ht'.first ho]
      exact max_le (ht'.deep r (hrw.mono (neg_le_neg hE))) hr0
    have hdd : 0 ≤ d.x * d.x + d.y * d.y := add_nonneg (mul_self_nonneg _) (mul_self_nonneg _)
    have h4 := mul_le_mul_of_nonneg_right htr hdd
    have h5 := distErr_le32 hM
    have h6 := (abs_le.1 ht.err).1
    have h7 := (abs_le.1 ht'.err).2
    linarith

theorem grow_fits32 {a : Aabb3 ℝ} (ha : FitsB binary32 M a) {p : V3 ℝ} (hr : Rep3 binary32 p) (hs : Sz3 M p) : FitsB binary32 M (a.grow p) := by
  obtain ⟨h1, ⟨⟨a1, a2, a3⟩, b1, b2, b3⟩, ⟨c1, c2, c3⟩, d1, d2, d3⟩ := ha
  have mn : ∀ {x y : ℝ}, Rep binary32 x → Rep binary32 y → Rep binary32 (min x y) := fun {x y} h k => by
    rcases min_choice x y with e | e <;> rw [e] <;> assumption
  have mx : ∀ {x y : ℝ}, Rep binary32 x → Rep binary32 y → Rep binary32 (max x y) := fun {x y} h k => by
    rcases max_choice x y with e | e <;> rw [e] <;> assumption
  have mn' : ∀ {x y : ℝ}, |x| ≤ M → |y| ≤ M → |min x y| ≤ M := fun {x y} h k => by
    rcases min_choice x y with e | e <;> rw [e] <;> assumption
  have mx' : ∀ {x y : ℝ}, |x| ≤ M → |y| ≤ M → |max x y| ≤ M := fun {x y} h k => by
    rcases max_choice x y with e | e <;> rw [e] <;> assumption
  have hv := (c25_grow3 a p).1
  rw [grow3_eq] at hv ⊢
  exact ⟨hv, ⟨⟨mn a1 hr.1, mn a2 hr.2.1, mn a3 hr.2.2⟩, mn' b1 hs.1, mn' b2 hs.2.1, mn' b3 hs.2.2⟩, ⟨mx c1 hr.1, mx c2 hr.2.1, mx c3 hr.2.2⟩, mx' d1 hs.1, mx' d2 hs.2.1, mx' d3 hs.2.2⟩
/-- `Union`, `src/volume/aabb/aabb3.rs:159-161`: the least box around both. -/
def Box3M32.union (a b : Box3M32 M) : Box3M32 M where
  box := a.box.union b.box
  fits := grow_fits32 (grow_fits32 a.fits b.fits.2.1.1 b.fits.2.1.2) b.fits.2.2.1 b.fits.2.2.2
  solid := by
    have h := (c25_union_contains3 a.box b.box).2.1
    obtain ⟨⟨x1, x2⟩, ⟨y1, y2⟩, z1, z2⟩ := contains_iff3.1 h
    exact ⟨(x1.trans_lt a.solid.1).trans_le x2, (y1.trans_lt a.solid.2.1).trans_le y2, (z1.trans_lt a.solid.2.2).trans_le z2⟩
/-- It is the union computed in `f32`. -/
theorem union_f32_3 (a b : Box3M32 M) : (a.union b).f32.1 = a.f32.1.union b.f32.1 := by
  show boxR3 binary32 ((a.box.grow b.box.min).grow b.box.max) = ((boxR3 binary32 a.box).grow (vecR binary32 b.box.min)).grow (vecR binary32 b.box.max)
  rw [boxR3_grow, boxR3_grow]
/-- A tree of such boxes: every test is made in `f32`. -/
def opsM3_32 {V S : Type} (bound fat : V → Box3M32 M) (area : Aabb3 F32 → S) (lt : S → S → Bool) (sub div : S → S → S) (im : S) : Ops V (Box3M32 M) S where
  bound := bound
  fat := fat
  union := Box3M32.union
  contains a b := a.f32.1.contains b.f32.1
  area a := area a.f32.1
  lt := lt
  sub := sub
  div := div
  improvement := im
theorem opsM3_encloses32 {V S : Type} (bound fat : V → Box3M32 M) (area : Aabb3 F32 → S) (lt : S → S → Bool) (sub div : S → S → S) (im : S) :
    Encloses (opsM3_32 bound fat area lt sub div im) (fun a b => a.f32.1.contains b.f32.1 = true) where
  trans := c26_order3.2.1 _ _ _
  union_left a b := by
    show (a.union b).f32.1.contains _ = true
    rw [union_f32_3]; exact (c25_union_contains3 a.f32.1 b.f32.1).2.1
  union_right a b := by
    show (a.union b).f32.1.contains _ = true
    rw [union_f32_3]; exact (c25_union_contains3 a.f32.1 b.f32.1).2.2
  contains h := h

/-- `query_ray_closest` in `f32` (3D), with infinities and NaN, `src/dbvt/util.rs:86-114` -/
def queryRayClosest32_3 {V S : Type} (O : Ops V (Box3M32 M) S) (s : Dbvt V (Box3M32 M)) (nz : V3 Bool) (o d : V3 ℝ) : Res (Option (V × V3 (WithNan F32))) :=
  queryRayClosest O s (fun b => intersectionN3 binary32 nz (vecR binary32 o) (vecR binary32 d) b.f32.1) (rayTN3 binary32 (vecR binary32 o) (vecR binary32 d)) nlt (some binary32.inf)

/-- **C121 (C111), 3D**, as in 2D; the boxes are not flat, and the direction may have components zero (of either sign, `nz`). -/
theorem c121_closest3_partial {V S : Type} (hM : 1 ≤ M) (hM' : M ≤ 2 ^ 60) (bound fat : V → Box3M32 M) (area : Aabb3 F32 → S) (lt : S → S → Bool) (sub div : S → S → S) (im : S)
    (hfat : ∀ v, (fat v).f32.1.contains (bound v).f32.1 = true) {h : Hist V} {s : Dbvt V (Box3M32 M)} (he : Exec (opsM3_32 bound fat area lt sub div im) h s) (hd : Disciplined (opsM3_32 bound fat area lt sub div im) h)
    (hu : UpToDate (opsM3_32 bound fat area lt sub div im) h) (hr : Refitted! h) {n : Nat} (hh : s.height = .ok n) (hn : n ≤ 256) (nz : V3 Bool) {o d : V3 ℝ} (hray : Ray3M32 M o d)
    (hout : ∀ (i : Nat) (b : Branch (Box3M32 M)), s.nodes[i]? = some (Node.branch b) → ¬ b.bound.box.Mem o) :
    ∃ res, queryRayClosest32_3 (opsM3_32 bound fat area lt sub div im) s nz o d = .ok res ∧
      (res = none → ∀ v ∈ s.values.map Prod.snd, ¬ ∃ t, 0 ≤ t ∧ Around3 (bound v).box (-rayErr32 M) (along3 o d t)) ∧
      ∀ v p, res = some (v, p) → v ∈ s.values.map Prod.snd ∧ ∃ q t, p = someV (vecR binary32 q) ∧ 0 ≤ t ∧ Close3 (rayErr32 M) q (along3 o d t) ∧ Around3 (bound v).box (rayErr32 M) (along3 o d t) ∧
        ∀ w ∈ s.values.map Prod.snd, ¬ (bound w).box.Mem o → ∀ r, 0 ≤ r → Around3 (bound w).box (-rayErr32 M) (along3 o d r) →
          t * (d.x * d.x + d.y * d.y + d.z * d.z) ≤ r * (d.x * d.x + d.y * d.y + d.z * d.z) + distErr32 M := by
  have hE := rayErr_le32 hM
  have ho32 : Fin32 (vecR binary32 o).x ∧ Fin32 (vecR binary32 o).y ∧ Fin32 (vecR binary32 o).z := ⟨num_fin hray.ro.1, num_fin hray.ro.2.1, num_fin hray.ro.2.2⟩
  have hok := rayOk32 nz (vecR binary32 o) (vecR binary32 d) ho32 ⟨num_fin hray.dx.1, num_fin hray.dy.1, num_fin hray.dz.1⟩
  have fits : ∀ b : Box3M32 M, FitsRay3 binary32 M dirMin32 o d b.box := fun b => ⟨hray.ro, hray.so, hray.dx, hray.dy, hray.dz, hray.ne, b.fits, b.solid⟩
  have hit : ∀ (b : Box3M32 M) (p : V3 (WithNan F32)), intersectionN3 binary32 nz (vecR binary32 o) (vecR binary32 d) b.f32.1 = some p →
      ∃ l k t τ, HitT3 binary32 ((2 : ℝ) ^ (-24 : ℤ)) ((2 : ℝ) ^ (-150 : ℤ)) M nz o d b.box p l k t τ := fun b p hp =>
    hit_form3 std32 hM dirMin_pos32 dirMin_le32 (zpow_pos (by norm_num) _) (ray32_omega64 hM hM') (ray32_omega2 hM') nz (fits b) hp
  have ord := nlt_ordOn (F := F32)
  obtain ⟨res, h1, h2, h3⟩ := closest_generic (opsM3_32 bound fat area lt sub div im) s (fun b : Box3M32 M => intersectionN3 binary32 nz (vecR binary32 o) (vecR binary32 d) b.f32.1)
    (rayTN3 binary32 (vecR binary32 o) (vecR binary32 d)) nlt ord
    (by
      intro b p hp
      obtain ⟨l, k, t, τ, ht⟩ := hit _ p hp
      rw [ht.dist]
      simp) (opsM3_encloses32 bound fat area lt sub div im) hfat he hd hu hr hh hn (some binary32.inf) (by simp)
    (by
      intro v p hp
      obtain ⟨l, k, t, τ, ht⟩ := hit _ p hp
      rw [ht.dist]
      exact decide_eq_true (lt_of_le_of_ne (binary32.le_inf _) (num_fin ht.rτ).1))
    (by
      intro i b hb v hen p hp
      have hs := (c99_mono_nan3 binary32 hok (solid_valid32 (bound v).f32.2) (thick32 _ ho32 (bound v).f32.2) hen).2 (by
        have : intersectionN3 binary32 nz (vecR binary32 o) (vecR binary32 d) (bound v).f32.1 = some p := hp
        rw [this]; rfl)
      obtain ⟨q, hq⟩ := Option.isSome_iff_exists.1 hs
      obtain ⟨l, k, t, τ, ht⟩ := hit _ p hp
      obtain ⟨l', k', t', τ', ht'⟩ := hit _ q hq
      refine ⟨q, hq, ?_⟩
      rw [ht.dist, ht'.dist]
      refine decide_eq_false ?_
      rw [numR_lt ht.rτ ht'.rτ, not_lt]
      exact hit_mono3 hok (solid_valid32 (bound v).f32.2) (thick32 _ ho32 (bound v).f32.2) hen ht ht' (hout i b hb))
  have shr : ∀ v, (∃ t, 0 ≤ t ∧ Around3 (bound v).box (-rayErr32 M) (along3 o d t)) → ∃ p, intersectionN3 binary32 nz (vecR binary32 o) (vecR binary32 d) (bound v).f32.1 = some p := by
    intro v ht
    have k := c120_ray3 hM hM' nz (fits (bound v))
    have := k.2.1 ht
    rw [k.2.2.1] at this
    exact Option.isSome_iff_exists.1 this
  refine ⟨res, h1, ?_, ?_⟩
  · intro hnone v hv ht
    obtain ⟨e, hm, rfl⟩ := List.mem_map.1 hv
    obtain ⟨p, hp⟩ := shr _ ht
    have := h2.1 hnone e hm
    have : (some p : Option (V3 (WithNan F32))) = none := hp.symm.trans this
    cases this
  · intro v p hvp
    obtain ⟨hv, hp, hmin⟩ := h3 v p hvp
    have hp : intersectionN3 binary32 nz (vecR binary32 o) (vecR binary32 d) (bound v).f32.1 = some p := hp
    obtain ⟨l, k, t, τ, ht⟩ := hit _ p hp
    refine ⟨hv, ?_⟩
    obtain ⟨q, eq, hq⟩ := ht.close
    refine ⟨q, t, eq, ht.nonneg, ⟨hq.1.trans hE, hq.2.1.trans hE, hq.2.2.trans hE⟩, ht.near.mono hE, ?_⟩
    intro w hw ho r hr0 hrw
    obtain ⟨e, hm, rfl⟩ := List.mem_map.1 hw
    obtain ⟨p', hp'⟩ := shr _ ⟨r, hr0, hrw⟩
    obtain ⟨l', k', t', τ', ht'⟩ := hit _ p' hp'
    have hcmp := hmin e hm p' hp'
    rw [ht.dist, ht'.dist] at hcmp
    have hcmp := of_decide_eq_false hcmp
    rw [numR_lt ht'.rτ ht.rτ, not_lt] at hcmp
    have htr : t' ≤ r := by
      rw [ht'.first ho]
      exact max_le (ht'.deep r (hrw.mono (neg_le_neg hE))) hr0
    have hdd : 0 ≤ d.x * d.x + d.y * d.y + d.z * d.z := add_nonneg (add_nonneg (mul_self_nonneg _) (mul_self_nonneg _)) (mul_self_nonneg _)
    have h4 := mul_le_mul_of_nonneg_right htr hdd
    have h5 := distErr_le32 hM
    have h6 := (abs_le.1 ht.err).1
    have h7 := (abs_le.1 ht'.err).2
    linarith

/-! ## Rays that start outside the scene -/

/-- **C121 (C111) from outside the scene** (2D): for every ray that starts outside of a box `W` around all fat volumes that were given to the tree, the value returned is, up to rounding, the first one hit. -/
theorem c121_outside2_partial {V S : Type} (hM : 1 ≤ M) (hM' : M ≤ 2 ^ 60) (bound fat : V → Box2M32 M) (area : Aabb2 F32 → S) (lt : S → S → Bool) (sub div : S → S → S) (im : S)
    (hfat : ∀ v, (fat v).f32.1.contains (bound v).f32.1 = true) {h : Hist V} {s : Dbvt V (Box2M32 M)} (he : Exec (opsM2_32 bound fat area lt sub div im) h s) (hd : Disciplined (opsM2_32 bound fat area lt sub div im) h)
    (hu : UpToDate (opsM2_32 bound fat area lt sub div im) h) (hr : Refitted! h) {n : Nat} (hh : s.height = .ok n) (hn : n ≤ 256) {o d : V2 ℝ} (hray : Ray2M32 M o d)
    (W : Aabb2 ℝ) (hW : ∀ v, Given h v → W.contains (fat v).box = true) (ho : ¬ W.Mem o) :
    ∃ res, queryRayClosest32_2 (opsM2_32 bound fat area lt sub div im) s o d = .ok res ∧
      (res = none → ∀ v ∈ s.values.map Prod.snd, ¬ ∃ t, 0 ≤ t ∧ Around2 (bound v).box (-rayErr32 M) (along2 o d t)) ∧
      ∀ v p, res = some (v, p) → v ∈ s.values.map Prod.snd ∧ ∃ q t, p = vecR2 binary32 q ∧ 0 ≤ t ∧ Close2 (rayErr32 M) q (along2 o d t) ∧ Around2 (bound v).box (rayErr32 M) (along2 o d t) ∧
        ∀ w ∈ s.values.map Prod.snd, ∀ r, 0 ≤ r → Around2 (bound w).box (-rayErr32 M) (along2 o d r) →
          t * (d.x * d.x + d.y * d.y) ≤ r * (d.x * d.x + d.y * d.y) + distErr32 M := by
  obtain ⟨res, h1, h2, h3⟩ := c121_closest2_partial hM hM' bound fat area lt sub div im hfat he hd hu hr hh hn hray (fun i b hb hm => ho (mem_of_contains2
    ((c112_within _ he hr (fun b : Box2M32 M => W.contains b.box = true) (fun _ b h1 h2 => c25_union_least2 _ _ _ b.valid h1 h2) hW).1 i b hb) hm))
  refine ⟨res, h1, h2, fun v p e => ?_⟩
  obtain ⟨a, q, t, b1, b2, b3, b4, b5⟩ := h3 v p e
  refine ⟨a, q, t, b1, b2, b3, b4, fun w hw => b5 w hw fun hm => ho ?_⟩
  obtain ⟨e, he', rfl⟩ := List.mem_map.1 hw
  exact mem_of_contains2 (hW _ (mapOf_given ((exec_inv _ he).mem.1 he'))) (mem_of_contains2 (contains_real2_32 (hfat e.2)) hm)
theorem contains_real3_32 {a b : Box3M32 M} (h : a.f32.1.contains b.f32.1 = true) : a.box.contains b.box = true := by
  obtain ⟨⟨x1, x2⟩, ⟨y1, y2⟩, z1, z2⟩ := contains_iff3.1 h
  obtain ⟨-, ⟨⟨p1, p2, p3⟩, -⟩, ⟨q1, q2, q3⟩, -⟩ := a.fits
  obtain ⟨-, ⟨⟨r1, r2, r3⟩, -⟩, ⟨s1, s2, s3⟩, -⟩ := b.fits
  exact contains_iff3.2 ⟨⟨(num_le p1 r1).1 x1, (num_le s1 q1).1 x2⟩, ⟨(num_le p2 r2).1 y1, (num_le s2 q2).1 y2⟩, (num_le p3 r3).1 z1, (num_le s3 q3).1 z2⟩
/-- **C121 (C111) from outside the scene** (3D). -/
theorem c121_outside3_partial {V S : Type} (hM : 1 ≤ M) (hM' : M ≤ 2 ^ 60) (bound fat : V → Box3M32 M) (area : Aabb3 F32 → S) (lt : S → S → Bool) (sub div : S → S → S) (im : S)
    (hfat : ∀ v, (fat v).f32.1.contains (bound v).f32.1 = true) {h : Hist V} {s : Dbvt V (Box3M32 M)} (he : Exec (opsM3_32 bound fat area lt sub div im) h s) (hd : Disciplined (opsM3_32 bound fat area lt sub div im) h)
    (hu : UpToDate (opsM3_32 bound fat area lt sub div im) h) (hr : Refitted! h) {n : Nat} (hh : s.height = .ok n) (hn : n ≤ 256) (nz : V3 Bool) {o d : V3 ℝ} (hray : Ray3M32 M o d)
    (W : Aabb3 ℝ) (hW : ∀ v, Given h v → W.contains (fat v).box = true) (ho : ¬ W.Mem o) :
    ∃ res, queryRayClosest32_3 (opsM3_32 bound fat area lt sub div im) s nz o d = .ok res ∧
      (res = none → ∀ v ∈ s.values.map Prod.snd, ¬ ∃ t, 0 ≤ t ∧ Around3 (bound v).box (-rayErr32 M) (along3 o d t)) ∧
      ∀ v p, res = some (v, p) → v ∈ s.values.map Prod.snd ∧ ∃ q t, p = someV (vecR binary32 q) ∧ 0 ≤ t ∧ Close3 (rayErr32 M) q (along3 o d t) ∧ Around3 (bound v).box (rayErr32 M) (along3 o d t) ∧
        ∀ w ∈ s.values.map Prod.snd, ∀ r, 0 ≤ r → Around3 (bound w).box (-rayErr32 M) (along3 o d r) →
          t * (d.x * d.x + d.y * d.y + d.z * d.z) ≤ r * (d.x * d.x + d.y * d.y + d.z * d.z) + distErr32 M := by
  obtain ⟨res, h1, h2, h3⟩ := c121_closest3_partial hM hM' bound fat area lt sub div im hfat he hd hu hr hh hn nz hray (fun i b hb hm => ho (mem_of_contains3
    ((c112_within _ he hr (fun b : Box3M32 M => W.contains b.box = true) (fun _ b h1 h2 => c25_union_least3 _ _ _ b.fits.1 h1 h2) hW).1 i b hb) hm))
  refine ⟨res, h1, h2, fun v p e => ?_⟩
  obtain ⟨a, q, t, b1, b2, b3, b4, b5⟩ := h3 v p e
  refine ⟨a, q, t, b1, b2, b3, b4, fun w hw => b5 w hw fun hm => ho ?_⟩
  obtain ⟨e, he', rfl⟩ := List.mem_map.1 hw
  exact mem_of_contains3 (hW _ (mapOf_given ((exec_inv _ he).mem.1 he'))) (mem_of_contains3 (contains_real3_32 (hfat e.2)) hm)

/-! ## A case -/

theorem rowAt_fits32 {n : ℤ} (h : n ∈ [2, 4]) : RpBox binary32 8 (rowAt n) ∧ (rowAt n).Valid := by
  have hn : n = 2 ∨ n = 4 := by simpa using h
  have r0 := rep_zero (R := binary32)
  have r1 := rep_one (R := binary32)
  have rn : Rep binary32 ((n : ℤ) : ℝ) := rep32_int24 (by rcases hn with rfl | rfl <;> norm_num)
  have rn1 : Rep binary32 ((n : ℝ) + 1) := by
    have := rep32_int24 (n := n + 1) (by rcases hn with rfl | rfl <;> norm_num)
    push_cast at this
    exact this
  refine ⟨⟨⟨⟨rn, r0⟩, ?_⟩, ⟨rn1, r1⟩, ?_⟩, ?_⟩ <;> rcases hn with rfl | rfl <;> norm_num [Sz, rowAt, Aabb2.Valid]
/-- The box of a value of the example. -/
def rowBox32 (v : { n : ℤ // n ∈ [2, 4] }) : Box2M32 8 := ⟨rowAt v.1, (rowAt_fits32 v.2).1, (rowAt_fits32 v.2).2⟩
/-- A case: the ray from `(0, 1/2)` along `x` on a tree of the squares at 2 and 4, both of which it passes, is answered with the first, and the point is within the rounding error of `(2, 1/2)`. -/
theorem c121_example (rng : Nat → Nat) : ∃ (s : Dbvt { n : ℤ // n ∈ [2, 4] } (Box2M32 8)) (q : V2 ℝ),
    queryRayClosest32_2 (opsM2_32 rowBox32 rowBox32 (fun _ => ()) (fun _ _ => false) (fun _ _ => ()) (fun _ _ => ()) ()) s ⟨0, 1 / 2⟩ ⟨1, 0⟩ = .ok (some (⟨2, by simp⟩, vecR2 binary32 q)) ∧
    |q.x - 2| ≤ 1 / 1024 ∧ |q.y - 1 / 2| ≤ 1 / 1024 := by
  obtain ⟨h, s, he, hd, hu, hr, hv⟩ := build_tree (opsM2_32 rowBox32 rowBox32 (fun _ => ()) (fun _ _ => false) (fun _ _ => ()) (fun _ _ => ()) ()) [⟨2, by simp⟩, ⟨4, by simp⟩] rng
  obtain ⟨n, hh, -, -, hn, -⟩ := c04_height _ he hr
  have hl : s.values.length = 2 := by rw [← List.length_map (f := Prod.snd), hv]; rfl
  have r0 := rep_zero (R := binary32)
  have r1 := rep_one (R := binary32)
  have rh : Rep binary32 (1 / 2) := rep_of_rep32 ⟨1, -1, by norm_num, by norm_num, by norm_num, by norm_num⟩
  obtain ⟨res, h1, h2, h3⟩ := c121_outside2_partial (M := 8) (by norm_num) (by norm_num) rowBox32 rowBox32 _ _ _ _ _ (fun v => c26_order2.1 _) he hd hu hr hh (by omega) (o := ⟨0, 1 / 2⟩) (d := ⟨1, 0⟩)
    ⟨⟨r0, rh⟩, by norm_num [Sz], ⟨r1, by norm_num, Or.inr (by rw [abs_one]; exact dirMin_le32)⟩, ⟨r0, by norm_num, Or.inl rfl⟩, Or.inl one_ne_zero⟩ ⟨⟨2, 0⟩, ⟨5, 1⟩⟩
    (by
      rintro ⟨m, hm⟩ -
      have hm' : m = 2 ∨ m = 4 := by simpa using hm
      rcases hm' with rfl | rfl <;> exact contains_iff2.2 (by norm_num [rowBox32, rowAt]))
    (by
      intro hm
      have := hm.1.1
      norm_num at this)
  rw [hv] at h2 h3
  have pass : Around2 (rowBox32 ⟨2, by simp⟩).box (-rayErr32 8) (along2 ⟨0, 1 / 2⟩ ⟨1, 0⟩ (2 + 1 / 2048)) := by norm_num [Around2, along2, rowBox32, rowAt, rayErr32]
  cases res with
  | none => exact absurd ⟨_, by norm_num, pass⟩ (h2 rfl ⟨2, by simp⟩ (by simp))
  | some vp =>
    obtain ⟨v, p⟩ := vp
    obtain ⟨hvm, q, t, rfl, t0, hc, ha, hmin⟩ := h3 v p rfl
    have hm := hmin ⟨2, by simp⟩ (by simp) _ (by norm_num) pass
    norm_num [distErr32] at hm
    have hv2 : v = ⟨2, by simp⟩ := by
      simp only [List.mem_cons, List.not_mem_nil, or_false] at hvm
      rcases hvm with rfl | rfl
      · rfl
      · have := ha.1.1
        norm_num [rowBox32, rowAt, along2, rayErr32] at this
        linarith
    subst hv2
    refine ⟨s, q, h1, ?_, ?_⟩
    · have e1 := hc.1
      have e2 := ha.1.1
      norm_num [rowBox32, rowAt, along2, rayErr32, abs_le] at e1 e2 ⊢
      constructor <;> linarith [e1.1, e1.2]
    · have e1 := hc.2
      norm_num [along2, rayErr32, abs_le] at e1 ⊢
      constructor <;> linarith [e1.1, e1.2]

/-- The unit cube with the corner `(n, 0, 0)`. -/
theorem cubeAt_fits32 {n : ℤ} (h : n ∈ [2, 4]) : FitsB binary32 8 (cubeAt n) ∧ Solid (cubeAt n) := by
  have hn : n = 2 ∨ n = 4 := by simpa using h
  have r0 := rep_zero (R := binary32)
  have r1 := rep_one (R := binary32)
  have rn : Rep binary32 ((n : ℤ) : ℝ) := rep32_int24 (by rcases hn with rfl | rfl <;> norm_num)
  have rn1 : Rep binary32 ((n : ℝ) + 1) := by
    have := rep32_int24 (n := n + 1) (by rcases hn with rfl | rfl <;> norm_num)
    push_cast at this
    exact this
  refine ⟨⟨?_, ⟨⟨rn, r0, r0⟩, ?_⟩, ⟨rn1, r1, r1⟩, ?_⟩, ?_⟩ <;> rcases hn with rfl | rfl <;> norm_num [Sz3, cubeAt, Aabb3.Valid, Solid]
/-- The box of a value of the example. -/
def cubeBox32 (v : { n : ℤ // n ∈ [2, 4] }) : Box3M32 8 := ⟨cubeAt v.1, (cubeAt_fits32 v.2).1, (cubeAt_fits32 v.2).2⟩
/-- A case in 3D: the ray from `(0, 1/2, 1/2)` along `x`, so that the code computes with infinities, on a tree of the cubes at 2 and 4, both of which it passes: the query for the
closest hit returns the first, with a point within the rounding error of `(2, 1/2, 1/2)`. -/
theorem c121_example3 (nz : V3 Bool) (rng : Nat → Nat) : ∃ (s : Dbvt { n : ℤ // n ∈ [2, 4] } (Box3M32 8)) (q : V3 ℝ),
    queryRayClosest32_3 (opsM3_32 cubeBox32 cubeBox32 (fun _ => ()) (fun _ _ => false) (fun _ _ => ()) (fun _ _ => ()) ()) s nz ⟨0, 1 / 2, 1 / 2⟩ ⟨1, 0, 0⟩ = .ok (some (⟨2, by simp⟩, someV (vecR binary32 q))) ∧
    Close3 (1 / 1024) q ⟨2, 1 / 2, 1 / 2⟩ := by
  obtain ⟨h, s, he, hd, hu, hr, hv⟩ := build_tree (opsM3_32 cubeBox32 cubeBox32 (fun _ => ()) (fun _ _ => false) (fun _ _ => ()) (fun _ _ => ()) ()) [⟨2, by simp⟩, ⟨4, by simp⟩] rng
  obtain ⟨n, hh, -, -, hn, -⟩ := c04_height _ he hr
  have hl : s.values.length = 2 := by rw [← List.length_map (f := Prod.snd), hv]; rfl
  have r0 := rep_zero (R := binary32)
  have r1 := rep_one (R := binary32)
  have rh : Rep binary32 (1 / 2) := rep_of_rep32 ⟨1, -1, by norm_num, by norm_num, by norm_num, by norm_num⟩
  obtain ⟨res, h1, h2, h3⟩ := c121_outside3_partial (M := 8) (by norm_num) (by norm_num) cubeBox32 cubeBox32 _ _ _ _ _ (fun v => c26_order3.1 _) he hd hu hr hh (by omega) nz (o := ⟨0, 1 / 2, 1 / 2⟩) (d := ⟨1, 0, 0⟩)
    ⟨⟨r0, rh, rh⟩, by norm_num [Sz3], ⟨r1, by norm_num, Or.inr (by rw [abs_one]; exact dirMin_le32)⟩, ⟨r0, by norm_num, Or.inl rfl⟩, ⟨r0, by norm_num, Or.inl rfl⟩, Or.inl one_ne_zero⟩ ⟨⟨2, 0, 0⟩, ⟨5, 1, 1⟩⟩
    (by
      rintro ⟨m, hm⟩ -
      have hm' : m = 2 ∨ m = 4 := by simpa using hm
      rcases hm' with rfl | rfl <;> exact contains_iff3.2 (by norm_num [cubeBox32, cubeAt]))
    (by
      intro hm
      have := hm.1.1
      norm_num at this)
  rw [hv] at h2 h3
  have pass : Around3 (cubeBox32 ⟨2, by simp⟩).box (-rayErr32 8) (along3 ⟨0, 1 / 2, 1 / 2⟩ ⟨1, 0, 0⟩ (2 + 1 / 2048)) := by norm_num [Around3, along3, cubeBox32, cubeAt, rayErr32]
  cases res with
  | none => exact absurd ⟨_, by norm_num, pass⟩ (h2 rfl ⟨2, by simp⟩ (by simp))
  | some vp =>
    obtain ⟨v, p⟩ := vp
    obtain ⟨hvm, q, t, rfl, t0, hc, ha, hmin⟩ := h3 v p rfl
    have hm := hmin ⟨2, by simp⟩ (by simp) _ (by norm_num) pass
    norm_num [distErr32] at hm
    have hv2 : v = ⟨2, by simp⟩ := by
      simp only [List.mem_cons, List.not_mem_nil, or_false] at hvm
      rcases hvm with rfl | rfl
      · rfl
      · have := ha.1.1
        norm_num [cubeBox32, cubeAt, along3, rayErr32] at this
        linarith
    subst hv2
    refine ⟨s, q, h1, ?_, ?_, ?_⟩
    · have e1 := hc.1
      have e2 := ha.1.1
      norm_num [cubeBox32, cubeAt, along3, rayErr32, abs_le] at e1 e2 ⊢
      constructor <;> linarith [e1.1, e1.2]
    · have e1 := hc.2.1
      norm_num [along3, rayErr32, abs_le] at e1 ⊢
      constructor <;> linarith [e1.1, e1.2]
    · have e1 := hc.2.2
      norm_num [along3, rayErr32, abs_le] at e1 ⊢
      constructor <;> linarith [e1.1, e1.2]
end
end Verif.Scene
