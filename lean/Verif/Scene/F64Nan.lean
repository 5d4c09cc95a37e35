import Verif.Scene.F64
import Verif.Dbvt.RoundedNan
/-!
# C99 in `f64` for all 3D rays

Trees of boxes with `f64` coordinates that are not flat, and every ray with finite coordinates, direction components zero included: the queries answer exactly as the tests on the boxes, computed
with rounding, infinities and NaN. (With flat boxes they do not: `c15_flat_false`.)
-/
namespace Verif.Dbvt
open Verif Geom
set_option linter.unusedSectionVars false
noncomputable section
open Classical

/-- The smallest positive number. -/
def tiny : ℝ := (2 : ℝ) ^ (-1074 : ℤ)
theorem tiny_pos : 0 < tiny := zpow_pos (by norm_num) _
theorem rep64_tiny : Rep64 tiny := ⟨1, -1074, by norm_num, by norm_num, by norm_num, by simp [tiny]⟩
theorem rep64_neg_tiny : Rep64 (-tiny) := ⟨-1, -1074, by norm_num, by norm_num, by norm_num, by simp [tiny]⟩

/-- Gradual underflow: only numbers nearer to zero than the smallest positive one are rounded to zero. -/
theorem rnd64_ne_zero {x : ℝ} (h : tiny ≤ |x|) : binary64.rnd (x : EReal) ≠ binary64.zero := by
  intro e
  change _ = F64.fin 0 rep64_zero at e
  rcases le_abs.1 h with h | h
  · have := binary64.rnd_mono (EReal.coe_le_coe_iff.2 h)
    rw [rnd_fin rep64_tiny, e] at this
    exact absurd (fin_le.1 this) (not_le.2 tiny_pos)
  · have := binary64.rnd_mono (EReal.coe_le_coe_iff.2 (show x ≤ -tiny by linarith))
    rw [rnd_fin rep64_neg_tiny, e] at this
    have := fin_le.1 this
    linarith [tiny_pos]

theorem rep64_multiple {a : ℝ} (h : Rep64 a) : ∃ k : ℤ, a = k * tiny := by
  obtain ⟨m, e, -, h2, -, rfl⟩ := h
  obtain ⟨n, hn⟩ := Int.eq_ofNat_of_zero_le (show 0 ≤ e + 1074 by omega)
  refine ⟨m * 2 ^ n, ?_⟩
  have : (2 : ℝ) ^ e = 2 ^ n * tiny := by
    rw [tiny, ← zpow_natCast, ← zpow_add₀ (by norm_num)]
    congr 1
    omega
  rw [this]; push_cast; ring

/-- A rounded difference is zero only for equal numbers. -/
theorem sub64_zero {a b : F64} (hb : b ≠ binary64.inf ∧ b ≠ binary64.ninf) (h : binary64.sub a b = binary64.zero) : a = b := by
  rcases f64_cases b with rfl | rfl | ⟨s, hs, rfl⟩
  · exact absurd rfl hb.2
  · exact absurd rfl hb.1
  rcases f64_cases a with rfl | rfl | ⟨r, hr, rfl⟩
  · exfalso
    have e : binary64.sub F64.bot (F64.fin s hs) = F64.bot := by
      unfold Rounding.sub
      rw [val_fin, show binary64.val F64.bot = ⊥ from rfl, EReal.bot_sub]
      exact binary64.val_eq rfl
    rw [e] at h
    have := congrArg binary64.val h
    rw [binary64.val_zero] at this
    exact absurd this (by simp [binary64, F64.bot])
  · exfalso
    have e : binary64.sub F64.top (F64.fin s hs) = F64.top := by
      unfold Rounding.sub
      rw [val_fin, show binary64.val F64.top = ⊤ from rfl, EReal.top_sub_coe]
      exact binary64.val_eq rfl
    rw [e] at h
    have := congrArg binary64.val h
    rw [binary64.val_zero] at this
    exact absurd this (by simp [binary64, F64.top])
  · refine fin_eq _ _ ?_
    by_contra hne
    unfold Rounding.sub at h
    rw [val_fin, val_fin, ← EReal.coe_sub] at h
    refine rnd64_ne_zero ?_ h
    obtain ⟨k, rfl⟩ := rep64_multiple hr
    obtain ⟨l, rfl⟩ := rep64_multiple hs
    rw [← sub_mul, abs_mul, abs_of_pos tiny_pos]
    have hkl : k - l ≠ 0 := fun e => hne (by rw [sub_eq_zero.1 e])
    have : (1 : ℝ) ≤ |((k - l : ℤ) : ℝ)| := by rw [← Int.cast_abs]; exact_mod_cast Int.one_le_abs hkl
    push_cast at this
    nlinarith [tiny_pos]

/-- The inverse of a finite direction is not zero. -/
theorem inv64_ne_zero (neg : Bool) {d : F64} (hd : d ≠ binary64.inf ∧ d ≠ binary64.ninf) : binary64.invN neg d ≠ binary64.zero := by
  unfold Rounding.invN
  by_cases h0 : d = binary64.zero
  · rw [if_pos h0]
    intro e
    have := congrArg binary64.val e
    rw [binary64.val_zero] at this
    cases neg
    · rw [if_neg (by simp), binary64.val_inf] at this; exact absurd this (by simp)
    · rw [if_pos rfl, binary64.val_ninf] at this; exact absurd this (by simp)
  · rw [if_neg h0]
    rcases f64_cases d with rfl | rfl | ⟨s, hs, rfl⟩
    · exact absurd rfl hd.2
    · exact absurd rfl hd.1
    unfold Rounding.div
    rw [val_fin, binary64.val_one, ← EReal.coe_one, ← EReal.coe_div]
    have hs0 : s ≠ 0 := fun e => h0 (by subst e; rfl)
    refine rnd64_ne_zero ?_
    rw [abs_div, abs_one, le_div_iff₀ (abs_pos.2 hs0)]
    have h1 : |s| ≤ 2 ^ 1024 := by
      have := rep64_lt hs
      unfold over64 at this
      have h2 : (0 : ℝ) < 2 ^ 970 := by positivity
      exact this.le.trans (sub_le_self _ h2.le)
    calc tiny * |s| ≤ tiny * 2 ^ 1024 := mul_le_mul_of_nonneg_left h1 tiny_pos.le
      _ = (2 : ℝ) ^ (-50 : ℤ) := by
        rw [tiny, ← zpow_natCast, ← zpow_add₀ (by norm_num)]
        norm_num
      _ ≤ 1 := by norm_num

/-- A finite number. -/
def Fin64 (a : F64) : Prop := a ≠ binary64.inf ∧ a ≠ binary64.ninf

theorem rayOk64 (nz : V3 Bool) (o d : V3 F64) (ho : Fin64 o.x ∧ Fin64 o.y ∧ Fin64 o.z) (hd : Fin64 d.x ∧ Fin64 d.y ∧ Fin64 d.z) : RayOk binary64 nz o d :=
  ⟨⟨ho.1, inv64_ne_zero _ hd.1⟩, ⟨ho.2.1, inv64_ne_zero _ hd.2.1⟩, ⟨ho.2.2, inv64_ne_zero _ hd.2.2⟩⟩

/-- A box that is not flat. -/
def Solid {F : Type} [LinearOrder F] (b : Aabb3 F) : Prop := b.min.x < b.max.x ∧ b.min.y < b.max.y ∧ b.min.z < b.max.z

theorem thick64 (o : V3 F64) (ho : Fin64 o.x ∧ Fin64 o.y ∧ Fin64 o.z) {b : Aabb3 F64} (hb : Solid b) : Thick binary64 o b :=
  ⟨fun h => absurd hb.1 (by rw [sub64_zero ho.1 h.1, sub64_zero ho.1 h.2]; exact lt_irrefl _),
   fun h => absurd hb.2.1 (by rw [sub64_zero ho.2.1 h.1, sub64_zero ho.2.1 h.2]; exact lt_irrefl _),
   fun h => absurd hb.2.2 (by rw [sub64_zero ho.2.2 h.1, sub64_zero ho.2.2 h.2]; exact lt_irrefl _)⟩
end
end Verif.Dbvt

namespace Verif.Scene
open Verif Geom Dbvt BroadPhase
set_option linter.unusedSectionVars false
noncomputable section
open Classical

/-- Boxes with `f64` coordinates that are not flat. -/
abbrev Solid64 := { b : Aabb3 F64 // Solid b }
theorem solid_valid {b : Aabb3 F64} (h : Solid b) : b.Valid := ⟨h.1.le, h.2.1.le, h.2.2.le⟩
theorem solid_grow {a b : Aabb3 F64} (h : a.contains b = true) (hb : Solid b) : Solid a := by
  obtain ⟨⟨x1, x2⟩, ⟨y1, y2⟩, z1, z2⟩ := contains_iff3.1 h
  exact ⟨(x1.trans_lt hb.1).trans_le x2, (y1.trans_lt hb.2.1).trans_le y2, (z1.trans_lt hb.2.2).trans_le z2⟩
/-- A tree of boxes that are not flat, with margins as in `src/dbvt/wrapped.rs:51-53`. -/
def solidOps {V S : Type} (bound : V → Solid64) (m : V3 F64) (hm : f0 ≤ m.x ∧ f0 ≤ m.y ∧ f0 ≤ m.z) (area : Aabb3 F64 → S) (lt : S → S → Bool) (sub div : S → S → S) (im : S) : Ops V Solid64 S where
  bound := bound
  fat v := ⟨addMarginF3 binary64 (bound v).1 m, solid_grow (c99_margin3 binary64 (bound v).1 m hm.1 hm.2.1 hm.2.2).2 (bound v).2⟩
  union a b := ⟨a.1.union b.1, solid_grow (c25_union_contains3 _ _).2.1 a.2⟩
  contains a b := a.1.contains b.1
  area a := area a.1
  lt := lt
  sub := sub
  div := div
  improvement := im
theorem solidEncloses {V S : Type} (bound : V → Solid64) (m : V3 F64) (hm : f0 ≤ m.x ∧ f0 ≤ m.y ∧ f0 ≤ m.z) (area : Aabb3 F64 → S) (lt : S → S → Bool) (sub div : S → S → S) (im : S) :
    Encloses (solidOps bound m hm area lt sub div im) (fun a b => a.1.contains b.1 = true) where
  trans := c26_order3.2.1 _ _ _
  union_left a b := (c25_union_contains3 a.1 b.1).2.1
  union_right a b := (c25_union_contains3 a.1 b.1).2.2
  contains h := h

/-- **C99 in `f64`, all rays in 3D**, for every history. -/
theorem c99_nan_ray3 {V S : Type} (bound : V → Solid64) (m : V3 F64) (hm : f0 ≤ m.x ∧ f0 ≤ m.y ∧ f0 ≤ m.z) (area : Aabb3 F64 → S) (lt : S → S → Bool) (sub div : S → S → S) (im : S)
    (nz : V3 Bool) (o d : V3 F64) (ho : Fin64 o.x ∧ Fin64 o.y ∧ Fin64 o.z) (hdir : Fin64 d.x ∧ Fin64 d.y ∧ Fin64 d.z)
    {h : Hist V} {s : Dbvt V Solid64} (he : Exec (solidOps bound m hm area lt sub div im) h s)
    (hd : Disciplined (solidOps bound m hm area lt sub div im) h) (hu : UpToDate (solidOps bound m hm area lt sub div im) h)
    (hr : Refitted! h) {n : Nat} (hh : s.height = .ok n) (hn : n ≤ 256) :
    (∃ l, s.query (solidOps bound m hm area lt sub div im) (continuousVisitor fun b => intersectionN3 binary64 nz o d b.1) () = .ok l ∧
      l.Perm (s.values.filterMap fun e => (intersectionN3 binary64 nz o d (bound e.2).1).map fun p => (e.2, p))) ∧
    (∃ l, s.query (solidOps bound m hm area lt sub div im) (discreteVisitor fun b => intersectsN3 binary64 nz o d b.1) () = .ok l ∧
      (l.map Prod.fst).Perm ((s.values.map Prod.snd).filter fun v => intersectsN3 binary64 nz o d (bound v).1)) := by
  have hfat : ∀ v, (solidOps bound m hm area lt sub div im).contains ((solidOps bound m hm area lt sub div im).fat v) ((solidOps bound m hm area lt sub div im).bound v) = true :=
    fun v => (c99_margin3 binary64 (bound v).1 m hm.1 hm.2.1 hm.2.2).2
  have hmono := fun (big small : Solid64) (hc : big.1.contains small.1 = true) =>
    c99_mono_nan3 binary64 (rayOk64 nz o d ho hdir) (solid_valid small.2) (thick64 o ho small.2) hc
  constructor
  · rcases c07_query _ _ (solidEncloses bound m hm area lt sub div im) hfat (fun b _ => intersectionN3 binary64 nz o d b.1)
      (fun big small hc hs => (hmono big small hc).2 hs) he hd hu hr hh with ⟨-, l, h1, h2⟩ | ⟨h1, -⟩
    · exact ⟨l, h1, h2⟩
    · omega
  · rcases query_discrete _ _ (solidEncloses bound m hm area lt sub div im) hfat (fun b => intersectsN3 binary64 nz o d b.1)
      (fun big small hc hs => (hmono big small hc).1 hs) he hd hu hr hh with ⟨l, h1, h2⟩ | ⟨h1, -⟩
    · exact ⟨l, h1, h2⟩
    · omega

/-- Such trees exist: any list of at most 256 boxes. -/
theorem c99_nan_built {V S : Type} (bound : V → Solid64) (m : V3 F64) (hm : f0 ≤ m.x ∧ f0 ≤ m.y ∧ f0 ≤ m.z) (area : Aabb3 F64 → S) (lt : S → S → Bool) (sub div : S → S → S) (im : S)
    (vs : List V) (hvs : vs.length ≤ 256) (rng : Nat → Nat) :
    ∃ s : Dbvt V Solid64, s.values.map Prod.snd = vs ∧ (∃ h, Exec (solidOps bound m hm area lt sub div im) h s) ∧
      ∀ (nz : V3 Bool) (o d : V3 F64), (Fin64 o.x ∧ Fin64 o.y ∧ Fin64 o.z) → (Fin64 d.x ∧ Fin64 d.y ∧ Fin64 d.z) →
        ∃ l, s.query (solidOps bound m hm area lt sub div im) (continuousVisitor fun b => intersectionN3 binary64 nz o d b.1) () = .ok l ∧
          l.Perm (vs.filterMap fun v => (intersectionN3 binary64 nz o d (bound v).1).map fun p => (v, p)) := by
  obtain ⟨h, s, he, hd, hu, hr, hv⟩ := build_tree (solidOps bound m hm area lt sub div im) vs rng
  obtain ⟨n, hh, -, -, hn, -⟩ := c04_height _ he hr
  have hl : s.values.length = vs.length := by rw [← hv, List.length_map]
  refine ⟨s, hv, ⟨h, he⟩, fun nz o d ho hdir => ?_⟩
  obtain ⟨⟨l, q1, q2⟩, -⟩ := c99_nan_ray3 bound m hm area lt sub div im nz o d ho hdir he hd hu hr hh (by omega)
  refine ⟨l, q1, q2.trans (List.Perm.of_eq ?_)⟩
  rw [← hv, List.filterMap_map]; rfl
end
end Verif.Scene
