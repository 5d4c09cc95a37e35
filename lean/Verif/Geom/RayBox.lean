import Verif.Geom.AabbProps
import Mathlib.Tactic.Tauto
/-!
# Model of the ray/box tests (`src/volume/aabb/aabb2.rs:140-216`, `aabb3.rs:177-244`)

The code uses IEEE infinities (`neg_infinity`, `infinity`) and, in 3D, division by zero.  Scalars of the
computation are therefore `Ext K`: a field element, `±inf` or `nan`, with the IEEE rules for the
operations used (`*`, `+`, `min`, `max`, comparisons).  `Float::min`/`max` ignore NaN.
-/
namespace Verif.Geom
set_option linter.unusedSectionVars false

/-- IEEE-like extended scalar. The sign of zero is not part of it (see `Ext.inv`). -/
inductive Ext (K : Type) where
  | ninf
  | fin (x : K)
  | pinf
  | nan
  deriving DecidableEq

variable {K : Type} [Field K] [LinearOrder K]

namespace Ext
/-- IEEE `*`: `0 * inf` is NaN, otherwise the sign rule. -/
def mul : Ext K → Ext K → Ext K
  | nan, _ => nan
  | _, nan => nan
  | fin a, fin b => fin (a * b)
  | fin a, pinf => if a = 0 then nan else if 0 < a then pinf else ninf
  | fin a, ninf => if a = 0 then nan else if 0 < a then ninf else pinf
  | pinf, fin a => if a = 0 then nan else if 0 < a then pinf else ninf
  | ninf, fin a => if a = 0 then nan else if 0 < a then ninf else pinf
  | pinf, pinf => pinf
  | pinf, ninf => ninf
  | ninf, pinf => ninf
  | ninf, ninf => pinf
/-- IEEE `+` -/
def add : Ext K → Ext K → Ext K
  | nan, _ => nan
  | _, nan => nan
  | fin a, fin b => fin (a + b)
  | pinf, ninf => nan
  | ninf, pinf => nan
  | pinf, _ => pinf
  | _, pinf => pinf
  | ninf, _ => ninf
  | _, ninf => ninf
/-- IEEE `1 / d` for a finite `d`; `neg` is the sign bit of a zero `d` (`inf` for `+0`, `-inf` for `-0`). -/
def inv (neg : Bool) (d : K) : Ext K := if d = 0 then (if neg then ninf else pinf) else fin (1 / d)
/-- IEEE `≤` (false on NaN) -/
def le : Ext K → Ext K → Bool
  | nan, _ => false
  | _, nan => false
  | ninf, _ => true
  | _, pinf => true
  | fin a, fin b => a ≤ b
  | _, _ => false
/-- IEEE `<` (false on NaN) -/
def lt : Ext K → Ext K → Bool
  | nan, _ => false
  | _, nan => false
  | ninf, ninf => false
  | ninf, _ => true
  | pinf, _ => false
  | fin _, pinf => true
  | fin a, fin b => a < b
  | fin _, ninf => false
/-- `Float::min`: the other operand if one is NaN -/
def fmin (a b : Ext K) : Ext K :=
  if a = nan then b else if b = nan then a else if le a b then a else b
/-- `Float::max`: the other operand if one is NaN -/
def fmax (a b : Ext K) : Ext K :=
  if a = nan then b else if b = nan then a else if le a b then b else a
end Ext
open Ext

/-- One axis of the 2D test with non-zero direction: `(tx1.min(tx2), tx1.max(tx2))` with
`tx = (corner - origin) / direction`, `src/volume/aabb/aabb2.rs:149-152, 158-161` -/
def slab2 (lo hi o d : K) : Ext K × Ext K :=
  let t1 := (lo - o) / d
  let t2 := (hi - o) / d
  (fmin (fin t1) (fin t2), fmax (fin t1) (fin t2))

/-- The per-axis step of the 2D tests on `(tmin, tmax)`; `none` is the early `return None` /
`return false`. `src/volume/aabb/aabb2.rs:148-155, 157-164` (and `190-197, 199-206`) -/
def axis2 (lo hi o d : K) (acc : Ext K × Ext K) : Option (Ext K × Ext K) :=
  if d ≠ 0 then some (fmax acc.1 (slab2 lo hi o d).1, fmin acc.2 (slab2 lo hi o d).2)
  else if o ≤ lo ∨ hi ≤ o then none else some acc

/-- `(tmin, tmax)` at the end of the 2D tests -/
def Ray2.slabs (r : Ray2 K) (b : Aabb2 K) : Option (Ext K × Ext K) :=
  (axis2 b.min.x b.max.x r.origin.x r.direction.x (ninf, pinf)).bind
    (axis2 b.min.y b.max.y r.origin.y r.direction.y)

/-- `origin + direction * t`, `src/volume/aabb/aabb2.rs:170` -/
def Ray2.atE (r : Ray2 K) (t : Ext K) : V2 (Ext K) :=
  ⟨add (fin r.origin.x) (mul (fin r.direction.x) t), add (fin r.origin.y) (mul (fin r.direction.y) t)⟩

/-- `Continuous<Aabb2> for Ray2`, `src/volume/aabb/aabb2.rs:142-172` -/
def Ray2.intersectionAabb (r : Ray2 K) (b : Aabb2 K) : Option (V2 (Ext K)) :=
  (r.slabs b).bind fun (tmin, tmax) =>
    if (lt tmin (fin 0) && lt tmax (fin 0)) || lt tmax tmin then none
    else
      let t := if le (fin 0) tmin then tmin else tmax
      some (r.atE t)

/-- `Discrete<Aabb2> for Ray2`, `src/volume/aabb/aabb2.rs:184-209` -/
def Ray2.intersectsAabb (r : Ray2 K) (b : Aabb2 K) : Bool :=
  match r.slabs b with
  | none => false
  | some (tmin, tmax) => le tmin tmax && (le (fin 0) tmin || le (fin 0) tmax)

/-- `(t1, t2)` of one axis of the 3D test; `inv_dir` is `1/direction`, without any zero test.
`src/volume/aabb/aabb3.rs:185-186, 192-193` -/
def slabT (neg : Bool) (lo hi o d : K) : Ext K × Ext K :=
  (mul (fin (lo - o)) (inv neg d), mul (fin (hi - o)) (inv neg d))

/-- `(tmin, tmax)` at the end of the 3D tests, `src/volume/aabb/aabb3.rs:183-197, 220-234`; `nz` are the
sign bits of the direction components (relevant only where a component is zero). -/
def Ray3.slabs (nz : V3 Bool) (r : Ray3 K) (b : Aabb3 K) : Ext K × Ext K :=
  let tx := slabT nz.x b.min.x b.max.x r.origin.x r.direction.x
  let ty := slabT nz.y b.min.y b.max.y r.origin.y r.direction.y
  let tz := slabT nz.z b.min.z b.max.z r.origin.z r.direction.z
  let tmin := fmin tx.1 tx.2
  let tmax := fmax tx.1 tx.2
  let tmin := fmax tmin (fmin ty.1 ty.2)
  let tmax := fmin tmax (fmax ty.1 ty.2)
  let tmin := fmax tmin (fmin tz.1 tz.2)
  let tmax := fmin tmax (fmax tz.1 tz.2)
  (tmin, tmax)

/-- `origin + direction * t`, `src/volume/aabb/aabb3.rs:203` -/
def Ray3.atE (r : Ray3 K) (t : Ext K) : V3 (Ext K) :=
  ⟨add (fin r.origin.x) (mul (fin r.direction.x) t), add (fin r.origin.y) (mul (fin r.direction.y) t),
   add (fin r.origin.z) (mul (fin r.direction.z) t)⟩

/-- `Continuous<Aabb3> for Ray3`, `src/volume/aabb/aabb3.rs:180-205` -/
def Ray3.intersectionAabb (nz : V3 Bool) (r : Ray3 K) (b : Aabb3 K) : Option (V3 (Ext K)) :=
  let (tmin, tmax) := r.slabs nz b
  if (lt tmin (fin 0) && lt tmax (fin 0)) || lt tmax tmin then none
  else
    let t := if le (fin 0) tmin then tmin else tmax
    some (r.atE t)

/-- `Discrete<Aabb3> for Ray3`, `src/volume/aabb/aabb3.rs:217-237` -/
def Ray3.intersectsAabb (nz : V3 Bool) (r : Ray3 K) (b : Aabb3 K) : Bool :=
  let (tmin, tmax) := r.slabs nz b
  le tmin tmax && (le (fin 0) tmin || le (fin 0) tmax)

/-! ## Specification -/

/-- At parameter `t` the ray coordinate `o + d t` is in `[lo, hi]`, and, if the ray is parallel to this
axis' faces, strictly between them. -/
def InSlab (lo hi o d t : K) : Prop := (lo ≤ o + d * t ∧ o + d * t ≤ hi) ∧ (d = 0 → lo < o ∧ o < hi)

/-- The ray meets the box at parameter `t`: the point is in the closed box and, in directions the ray is
parallel to, strictly between the faces. -/
def Ray2.Meets (r : Ray2 K) (b : Aabb2 K) (t : K) : Prop :=
  0 ≤ t ∧ b.Mem (r.at t) ∧ (r.direction.x = 0 → b.min.x < r.origin.x ∧ r.origin.x < b.max.x) ∧
    (r.direction.y = 0 → b.min.y < r.origin.y ∧ r.origin.y < b.max.y)

/-- The ray meets the box at parameter `t` (3D). -/
def Ray3.Meets (r : Ray3 K) (b : Aabb3 K) (t : K) : Prop :=
  0 ≤ t ∧ b.Mem (r.at t) ∧ (r.direction.x = 0 → b.min.x < r.origin.x ∧ r.origin.x < b.max.x) ∧
    (r.direction.y = 0 → b.min.y < r.origin.y ∧ r.origin.y < b.max.y) ∧
    (r.direction.z = 0 → b.min.z < r.origin.z ∧ r.origin.z < b.max.z)

/-- A finite point seen as a point of extended scalars. -/
def V2.toExt (p : V2 K) : V2 (Ext K) := ⟨fin p.x, fin p.y⟩
/-- A finite point seen as a point of extended scalars. -/
def V3.toExt (p : V3 K) : V3 (Ext K) := ⟨fin p.x, fin p.y, fin p.z⟩

/-! ## Order lemmas for non-NaN extended scalars -/

theorem Ext.lt_iff_not_le {a b : Ext K} (ha : a ≠ nan) (hb : b ≠ nan) : lt a b = !le b a := by
  rcases a with _ | a | _ | _ <;> rcases b with _ | b | _ | _ <;> simp_all [lt, le]
  rw [Bool.eq_iff_iff]; simp

theorem Ext.le_refl {a : Ext K} (ha : a ≠ nan) : le a a = true := by
  rcases a with _ | a | _ | _ <;> simp_all [le]

theorem Ext.le_trans {a b c : Ext K} (h1 : le a b = true) (h2 : le b c = true) : le a c = true := by
  rcases a with _ | a | _ | _ <;> rcases b with _ | b | _ | _ <;> rcases c with _ | c | _ | _ <;>
    simp_all [le]
  exact h1.trans h2

theorem Ext.le_total {a b : Ext K} (ha : a ≠ nan) (hb : b ≠ nan) : le a b = true ∨ le b a = true := by
  rcases a with _ | a | _ | _ <;> rcases b with _ | b | _ | _ <;> simp_all [le]
  exact _root_.le_total a b

theorem Ext.le_fmin {a b c : Ext K} (ha : a ≠ nan) (hb : b ≠ nan) :
    le c (fmin a b) = true ↔ le c a = true ∧ le c b = true := by
  rw [fmin, if_neg ha, if_neg hb]
  split_ifs with h
  · exact ⟨fun g => ⟨g, Ext.le_trans g h⟩, fun g => g.1⟩
  · have h := (Ext.le_total ha hb).resolve_left h
    exact ⟨fun g => ⟨Ext.le_trans g h, g⟩, fun g => g.2⟩

theorem Ext.fmax_le {a b c : Ext K} (ha : a ≠ nan) (hb : b ≠ nan) :
    le (fmax a b) c = true ↔ le a c = true ∧ le b c = true := by
  rw [fmax, if_neg ha, if_neg hb]
  split_ifs with h
  · exact ⟨fun g => ⟨Ext.le_trans h g, g⟩, fun g => g.2⟩
  · have h := (Ext.le_total ha hb).resolve_left h
    exact ⟨fun g => ⟨g, Ext.le_trans h g⟩, fun g => g.1⟩

theorem Ext.fmin_ne {a b : Ext K} (ha : a ≠ nan) (hb : b ≠ nan) : fmin a b ≠ nan := by
  unfold fmin; split_ifs <;> assumption
theorem Ext.fmax_ne {a b : Ext K} (ha : a ≠ nan) (hb : b ≠ nan) : fmax a b ≠ nan := by
  unfold fmax; split_ifs <;> assumption

/-- The final decision of the tests, given non-NaN `tmin`, `tmax` whose finite points are exactly the
parameters satisfying `P`, and which bound a finite interval. -/
theorem decide_spec (P : K → Prop) {tmin tmax : Ext K} (h1 : tmin ≠ nan) (h2 : tmax ≠ nan)
    (hP : ∀ t, P t ↔ le tmin (fin t) = true ∧ le (fin t) tmax = true)
    (h3 : tmin ≠ ninf) (h4 : tmax ≠ pinf) :
    (((lt tmin (fin 0) && lt tmax (fin 0)) || lt tmax tmin) = false ↔ ∃ t, 0 ≤ t ∧ P t) ∧
    ((le tmin tmax && (le (fin 0) tmin || le (fin 0) tmax)) = true ↔ ∃ t, 0 ≤ t ∧ P t) ∧
    ∀ t', 0 ≤ t' → P t' → ∃ t, (if le (fin 0) tmin then tmin else tmax) = fin t ∧ 0 ≤ t ∧ P t ∧
      ((∃ u < 0, P u) → ∀ u, P u → u ≤ t) ∧ (¬ (∃ u < 0, P u) → ∀ u, 0 ≤ u → P u → t ≤ u) := by
  have z : (fin 0 : Ext K) ≠ nan := by simp
  have hmeet : (le tmin tmax = true ∧ le (fin 0) tmax = true) ↔ ∃ t, 0 ≤ t ∧ P t := by
    constructor
    · rintro ⟨g1, g2⟩
      rcases tmin with _ | a | _ | _ <;> rcases tmax with _ | b | _ | _ <;> simp_all [le]
      rcases _root_.le_total 0 a with h | h
      · exact ⟨a, h, le_rfl, g1⟩
      · exact ⟨b, g2, g1, le_rfl⟩
    · rintro ⟨t, ht, hp⟩
      obtain ⟨g1, g2⟩ := (hP t).1 hp
      exact ⟨Ext.le_trans g1 g2, Ext.le_trans (b := fin t) (by simp [le, ht]) g2⟩
  have e1 : ((lt tmin (fin 0) && lt tmax (fin 0)) || lt tmax tmin) = false ↔
      le tmin tmax = true ∧ le (fin 0) tmax = true := by
    rw [lt_iff_not_le h1 z, lt_iff_not_le h2 z, lt_iff_not_le h2 h1]
    cases g1 : le (fin 0) tmin <;> cases g2 : le (fin 0) tmax <;> cases g3 : le tmin tmax <;> simp
    have := Ext.le_trans g1 g3
    simp_all
  have e2 : (le tmin tmax && (le (fin 0) tmin || le (fin 0) tmax)) = true ↔
      le tmin tmax = true ∧ le (fin 0) tmax = true := by
    cases g1 : le (fin 0) tmin <;> cases g2 : le (fin 0) tmax <;> cases g3 : le tmin tmax <;> simp
    have := Ext.le_trans g1 g3
    simp_all
  refine ⟨e1.trans hmeet, e2.trans hmeet, ?_⟩
  intro t' ht' hp'
  obtain ⟨g1, g2⟩ := hmeet.2 ⟨t', ht', hp'⟩
  rcases tmin with _ | a | _ | _ <;> rcases tmax with _ | b | _ | _ <;> simp [le] at g1 g2 h1 h2 h3 h4
  simp only [le, decide_eq_true_eq] at hP ⊢
  simp only [hP] at hp' ⊢
  by_cases h : 0 ≤ a
  · simp only [h, if_true, fin.injEq, exists_eq_left']
    refine ⟨trivial, ⟨le_rfl, g1⟩, ?_, fun _ u _ h => h.1⟩
    rintro ⟨x, hx, hax, _⟩
    exact absurd (h.trans hax) (not_le.2 hx)
  · simp only [h, if_false, fin.injEq, exists_eq_left']
    refine ⟨g2, ⟨g1, le_rfl⟩, fun _ _ h => h.2, ?_⟩
    intro hh
    exact absurd ⟨a, not_le.1 h, le_rfl, g1⟩ hh

variable [IsStrictOrderedRing K]

/-! ## One axis -/

/-- A non-parallel axis: both ends of the parameter interval are finite. -/
theorem slab2_spec {lo hi o d : K} (h : lo ≤ hi) (hd : d ≠ 0) :
    ∃ a b, slab2 lo hi o d = (fin a, fin b) ∧ ∀ t, InSlab lo hi o d t ↔ a ≤ t ∧ t ≤ b := by
  have e1 : ∀ x t : K, 0 < d → ((x - o) / d ≤ t ↔ x ≤ o + d * t) := by
    intro x t hd; rw [div_le_iff₀ hd]; constructor <;> intro h <;> linarith
  have e2 : ∀ x t : K, 0 < d → (t ≤ (x - o) / d ↔ o + d * t ≤ x) := by
    intro x t hd; rw [le_div_iff₀ hd]; constructor <;> intro h <;> linarith
  have e3 : ∀ x t : K, d < 0 → ((x - o) / d ≤ t ↔ o + d * t ≤ x) := by
    intro x t hd; rw [div_le_iff_of_neg hd]; constructor <;> intro h <;> linarith
  have e4 : ∀ x t : K, d < 0 → (t ≤ (x - o) / d ↔ x ≤ o + d * t) := by
    intro x t hd; rw [le_div_iff_of_neg hd]; constructor <;> intro h <;> linarith
  rcases lt_or_gt_of_ne hd with hn | hp
  · refine ⟨(hi - o) / d, (lo - o) / d, ?_, ?_⟩
    · have : (hi - o) / d ≤ (lo - o) / d := by
        rw [div_le_iff_of_neg hn, div_mul_cancel₀ _ hd]; linarith
      simp only [slab2, fmin, fmax, le]
      by_cases h' : (lo - o) / d ≤ (hi - o) / d
      · have := le_antisymm this h'; simp [this]
      · simp [h']
    · intro t; rw [e3 _ _ hn, e4 _ _ hn]; simp only [InSlab, hd, false_implies, and_true]; tauto
  · refine ⟨(lo - o) / d, (hi - o) / d, ?_, ?_⟩
    · have : (lo - o) / d ≤ (hi - o) / d := by
        rw [div_le_div_iff_of_pos_right hp]; linarith
      simp [slab2, fmin, fmax, le, this]
    · intro t; rw [e1 _ _ hp, e2 _ _ hp]; simp only [InSlab, hd, false_implies, and_true]

/-- One 3D axis, including division by zero and NaN: the interval it contributes, provided that a slab
the ray is parallel to has positive width. -/
theorem slabT_spec {neg : Bool} {lo hi o d : K} (h : lo ≤ hi) (hd : d = 0 → lo < hi) :
    let s := slabT neg lo hi o d
    fmin s.1 s.2 ≠ nan ∧ fmax s.1 s.2 ≠ nan ∧
    (∀ t, InSlab lo hi o d t ↔ le (fmin s.1 s.2) (fin t) = true ∧ le (fin t) (fmax s.1 s.2) = true) ∧
    (d ≠ 0 → fmin s.1 s.2 ≠ ninf ∧ fmax s.1 s.2 ≠ pinf) ∧
    (fmin s.1 s.2 = ninf → fmax s.1 s.2 = pinf ∨ fmax s.1 s.2 = ninf) := by
  by_cases hz : d = 0
  · have hlt := hd hz
    subst hz
    have hin : ∀ t, InSlab lo hi o 0 t ↔ lo < o ∧ o < hi := by
      intro t; unfold InSlab; rw [zero_mul, add_zero]
      exact ⟨fun h => h.2 rfl, fun h => ⟨⟨h.1.le, h.2.le⟩, fun _ => h⟩⟩
    simp only [hin]
    rcases lt_trichotomy lo o with h1 | h1 | h1
    · have a1 : ¬ (0 < lo - o) := by linarith
      have a2 : ¬ (lo - o = 0) := by intro h; linarith
      rcases lt_trichotomy o hi with h2 | h2 | h2
      · have b1 : (0 < hi - o) := by linarith
        have b2 : ¬ (hi - o = 0) := by intro h; linarith
        cases neg <;> simp [slabT, inv, mul, fmin, fmax, le, a1, a2, b1, b2, h1, h2]
      · subst h2
        cases neg <;> simp [slabT, inv, mul, fmin, fmax, le, a1, a2]
      · have b1 : ¬ (0 < hi - o) := by linarith
        have b2 : ¬ (hi - o = 0) := by intro h; linarith
        cases neg <;> simp [slabT, inv, mul, fmin, fmax, le, a1, a2, b1, b2, h2.le]
    · subst h1
      have b1 : (0 < hi - lo) := by linarith
      have b2 : ¬ (hi - lo = 0) := by intro h; linarith
      cases neg <;> simp [slabT, inv, mul, fmin, fmax, le, b1, b2]
    · have a1 : (0 < lo - o) := by linarith
      have a2 : ¬ (lo - o = 0) := by intro h; linarith
      have b1 : (0 < hi - o) := by linarith
      have b2 : ¬ (hi - o = 0) := by intro h; linarith
      cases neg <;> simp [slabT, inv, mul, fmin, fmax, le, a1, a2, b1, b2, h1.le]
  · obtain ⟨a, b, e, hs⟩ := slab2_spec (o := o) h hz
    have e' : (fmin (slabT neg lo hi o d).1 (slabT neg lo hi o d).2,
        fmax (slabT neg lo hi o d).1 (slabT neg lo hi o d).2) = slab2 lo hi o d := by
      simp [slabT, inv, hz, mul, slab2, div_eq_mul_inv]
    rw [e, Prod.mk.injEq] at e'
    simp only [e'.1, e'.2]
    simp [hs, le]

/-! ## C30 -/

theorem atE2 (r : Ray2 K) (t : K) : r.atE (fin t) = (r.at t).toExt := by
  simp [Ray2.atE, Ray2.at, V2.toExt, mul, add]

theorem atE3 (r : Ray3 K) (t : K) : r.atE (fin t) = (r.at t).toExt := by
  simp [Ray3.atE, Ray3.at, V3.toExt, mul, add]

/-- Meeting the box on the whole line (any sign of `t`). -/
def Ray2.LineIn (r : Ray2 K) (b : Aabb2 K) (t : K) : Prop :=
  InSlab b.min.x b.max.x r.origin.x r.direction.x t ∧ InSlab b.min.y b.max.y r.origin.y r.direction.y t

def Ray3.LineIn (r : Ray3 K) (b : Aabb3 K) (t : K) : Prop :=
  InSlab b.min.x b.max.x r.origin.x r.direction.x t ∧ InSlab b.min.y b.max.y r.origin.y r.direction.y t ∧
  InSlab b.min.z b.max.z r.origin.z r.direction.z t

theorem Ray2.meets_iff (r : Ray2 K) (b : Aabb2 K) (t : K) : r.Meets b t ↔ 0 ≤ t ∧ r.LineIn b t := by
  simp only [Ray2.Meets, Ray2.LineIn, InSlab, Aabb2.Mem, Ray2.at, V2.add_x, V2.add_y, V2.mul_x, V2.mul_y]; tauto

theorem Ray3.meets_iff (r : Ray3 K) (b : Aabb3 K) (t : K) : r.Meets b t ↔ 0 ≤ t ∧ r.LineIn b t := by
  simp only [Ray3.Meets, Ray3.LineIn, InSlab, Aabb3.Mem, Ray3.at, V3.add_x, V3.add_y, V3.add_z, V3.mul_x, V3.mul_y, V3.mul_z]; tauto

theorem axis2_spec {lo hi o d : K} (h : lo ≤ hi) (acc : Ext K × Ext K) (h1 : acc.1 ≠ nan) (h2 : acc.2 ≠ nan) :
    (axis2 lo hi o d acc = none ∧ d = 0 ∧ ∀ t, ¬ InSlab lo hi o d t) ∨
    ∃ p, axis2 lo hi o d acc = some p ∧ p.1 ≠ nan ∧ p.2 ≠ nan ∧
      (∀ t, (le p.1 (fin t) = true ∧ le (fin t) p.2 = true) ↔
        (le acc.1 (fin t) = true ∧ le (fin t) acc.2 = true) ∧ InSlab lo hi o d t) ∧
      (d ≠ 0 ∨ acc.1 ≠ ninf → p.1 ≠ ninf) ∧ (d ≠ 0 ∨ acc.2 ≠ pinf → p.2 ≠ pinf) := by
  unfold axis2
  by_cases hz : d = 0
  · subst hz
    by_cases ho : o ≤ lo ∨ hi ≤ o
    · left
      refine ⟨by simp [ho], rfl, ?_⟩
      rintro t ⟨-, h3⟩
      have := h3 rfl
      rcases ho with ho | ho
      · exact absurd this.1 (not_lt.2 ho)
      · exact absurd this.2 (not_lt.2 ho)
    · right
      refine ⟨acc, by simp [ho], h1, h2, ?_, by simp, by simp⟩
      intro t
      rw [not_or, not_le, not_le] at ho
      have : InSlab lo hi o 0 t := by
        simp only [InSlab, zero_mul, add_zero]; exact ⟨⟨ho.1.le, ho.2.le⟩, fun _ => ho⟩
      simp [this]
  · right
    obtain ⟨a, b, e, hs⟩ := slab2_spec (o := o) h hz
    refine ⟨(fmax acc.1 (fin a), fmin acc.2 (fin b)), by simp [hz, e], fmax_ne h1 (by simp), fmin_ne h2 (by simp), ?_, ?_, ?_⟩
    · intro t
      simp only [Ext.le_fmin h2 (show (fin b : Ext K) ≠ nan by simp), Ext.fmax_le h1 (show (fin a : Ext K) ≠ nan by simp), hs]
      simp only [le, decide_eq_true_eq]
      tauto
    · rintro - hh
      dsimp only at hh
      have : le (fmax acc.1 (fin a)) ninf = true := by rw [hh]; rfl
      rw [Ext.fmax_le h1 (by simp)] at this
      simp [le] at this
    · rintro - hh
      dsimp only at hh
      have : le pinf (fmin acc.2 (fin b)) = true := by rw [hh]; rfl
      rw [Ext.le_fmin h2 (by simp)] at this
      simp [le] at this

theorem Ray2.slabs_spec (r : Ray2 K) (b : Aabb2 K) (hb : b.Valid) (hd : r.direction ≠ 0) :
    (r.slabs b = none ∧ ∀ t, ¬ r.LineIn b t) ∨
    ∃ tmin tmax, r.slabs b = some (tmin, tmax) ∧ tmin ≠ nan ∧ tmax ≠ nan ∧
      (∀ t, r.LineIn b t ↔ le tmin (fin t) = true ∧ le (fin t) tmax = true) ∧ tmin ≠ ninf ∧ tmax ≠ pinf := by
  unfold Ray2.slabs
  rcases axis2_spec (o := r.origin.x) (d := r.direction.x) hb.1 (ninf, pinf) (by simp) (by simp) with
    ⟨e, -, hn⟩ | ⟨⟨p1, p2⟩, e, n1, n2, hs, f1, f2⟩
  · left; rw [e]; exact ⟨rfl, fun t ht => hn t ht.1⟩
  rcases axis2_spec (o := r.origin.y) (d := r.direction.y) hb.2 (p1, p2) n1 n2 with
    ⟨e', -, hn⟩ | ⟨⟨q1, q2⟩, e', m1, m2, hs', g1, g2⟩
  · left; rw [e]; exact ⟨by simp [e'], fun t ht => hn t ht.2⟩
  right
  have hne : r.direction.x ≠ 0 ∨ r.direction.y ≠ 0 := by
    by_contra hh
    push Not at hh
    exact hd (V2.ext hh.1 hh.2)
  refine ⟨q1, q2, by rw [e]; simp [e'], m1, m2, ?_, ?_, ?_⟩
  · intro t
    rw [hs' t, hs t, Ray2.LineIn]
    simp [le]
  · exact g1 (hne.symm.imp id fun h => f1 (Or.inl h))
  · exact g2 (hne.symm.imp id fun h => f2 (Or.inl h))

/-- A point strictly inside a slab stays inside it for a while before parameter 0. -/
theorem inSlab_before {lo hi o : K} (d : K) (h : lo < o ∧ o < hi) :
    ∃ e > 0, ∀ u, -e ≤ u → u ≤ 0 → InSlab lo hi o d u := by
  have hp : 0 < |d| + 1 := by positivity
  refine ⟨min (o - lo) (hi - o) / (|d| + 1), div_pos (lt_min (by linarith [h.1]) (by linarith [h.2])) hp, ?_⟩
  intro u h1 h2
  have hu : |u| * (|d| + 1) ≤ min (o - lo) (hi - o) := by
    rw [abs_of_nonpos h2, ← le_div_iff₀ hp]; linarith
  rw [le_min_iff] at hu
  have hdu : |d * u| ≤ |u| * (|d| + 1) := by
    rw [abs_mul]; nlinarith [abs_nonneg u, abs_nonneg d]
  have := abs_le.1 hdu
  exact ⟨⟨by linarith [hu.1], by linarith [hu.2]⟩, fun _ => h⟩

/-- C30: 2D ray against a normalised box. The result is `None` exactly if the ray misses; otherwise it
is the (finite) point of the ray at some `t ≥ 0` at which the ray meets the box; if the origin is not in
the closed box, no earlier point of the ray is in the box; if the origin is strictly inside, it is the
point where the ray leaves the box. `intersects` agrees. -/
theorem c30_ray_aabb2 (r : Ray2 K) (b : Aabb2 K) (hb : b.Valid) (hd : r.direction ≠ 0) :
    (r.intersectionAabb b = none ↔ ¬ ∃ t, r.Meets b t) ∧
    (r.intersectsAabb b = (r.intersectionAabb b).isSome) ∧
    (∀ q, r.intersectionAabb b = some q → ∃ t, r.Meets b t ∧ q = (r.at t).toExt ∧
      (¬ b.Mem r.origin → ∀ u, r.Meets b u → t ≤ u) ∧
      (b.IMem r.origin → ∀ u, r.Meets b u → u ≤ t)) := by
  unfold Ray2.intersectionAabb Ray2.intersectsAabb
  rcases r.slabs_spec b hb hd with ⟨e, hn⟩ | ⟨tmin, tmax, e, n1, n2, hs, f1, f2⟩
  · rw [e]
    refine ⟨?_, rfl, by simp⟩
    simp only [Option.bind_none, true_iff]
    rintro ⟨t, ht⟩
    exact hn t ((r.meets_iff b t).1 ht).2
  · rw [e]
    obtain ⟨d1, d2, d3⟩ := decide_spec (r.LineIn b) n1 n2 hs f1 f2
    have hm : (∃ t, r.Meets b t) ↔ ∃ t, 0 ≤ t ∧ r.LineIn b t := by simp only [r.meets_iff]
    simp only [Option.bind_some]
    refine ⟨?_, ?_, ?_⟩
    · rw [hm, ← d1]
      cases ((lt tmin (fin 0) && lt tmax (fin 0)) || lt tmax tmin) <;> simp
    · rw [Bool.eq_iff_iff, d2, ← d1]
      cases ((lt tmin (fin 0) && lt tmax (fin 0)) || lt tmax tmin) <;> simp
    · intro q hq
      have hc : ((lt tmin (fin 0) && lt tmax (fin 0)) || lt tmax tmin) = false := by
        cases h : ((lt tmin (fin 0) && lt tmax (fin 0)) || lt tmax tmin) with
        | false => rfl
        | true => simp [h] at hq
      obtain ⟨t', h0, hp⟩ := d1.1 hc
      obtain ⟨t, k1, k2, k3, k4, k5⟩ := d3 t' h0 hp
      refine ⟨t, (r.meets_iff b t).2 ⟨k2, k3⟩, ?_, ?_, ?_⟩
      · simp only [hc, k1, atE2] at hq
        simp at hq
        exact hq.symm
      · intro ho u hu
        obtain ⟨u0, hu⟩ := (r.meets_iff b u).1 hu
        refine k5 ?_ u u0 hu
        rintro ⟨v, v0, hv⟩
        apply ho
        rw [hs] at hu hv
        have h0 : r.LineIn b 0 := (hs 0).2 ⟨Ext.le_trans hv.1 (by simp [le, v0.le]), Ext.le_trans (b := fin u) (by simp [le, u0]) hu.2⟩
        simp only [Ray2.LineIn, InSlab, mul_zero, add_zero] at h0
        exact ⟨h0.1.1, h0.2.1⟩
      · intro hi u hu
        obtain ⟨u0, hu⟩ := (r.meets_iff b u).1 hu
        refine k4 ?_ u hu
        obtain ⟨e1, p1, q1⟩ := inSlab_before r.direction.x hi.1
        obtain ⟨e2, p2, q2⟩ := inSlab_before r.direction.y hi.2
        have hmin : 0 < min e1 e2 := lt_min p1 p2
        exact ⟨-min e1 e2, by linarith, q1 _ (by simp) (by linarith), q2 _ (by simp) (by linarith)⟩

/-! ## C31 -/

theorem combine3 {a1 b1 a2 b2 a3 b3 : Ext K} (x1 : a1 ≠ nan) (x2 : b1 ≠ nan) (y1 : a2 ≠ nan) (y2 : b2 ≠ nan)
    (z1 : a3 ≠ nan) (z2 : b3 ≠ nan)
    (hne : (a1 ≠ ninf ∧ b1 ≠ pinf) ∨ (a2 ≠ ninf ∧ b2 ≠ pinf) ∨ (a3 ≠ ninf ∧ b3 ≠ pinf)) :
    fmax (fmax a1 a2) a3 ≠ nan ∧ fmin (fmin b1 b2) b3 ≠ nan ∧
    (∀ t, ((le a1 (fin t) = true ∧ le (fin t) b1 = true) ∧ (le a2 (fin t) = true ∧ le (fin t) b2 = true) ∧
      (le a3 (fin t) = true ∧ le (fin t) b3 = true)) ↔
      le (fmax (fmax a1 a2) a3) (fin t) = true ∧ le (fin t) (fmin (fmin b1 b2) b3) = true) ∧
    fmax (fmax a1 a2) a3 ≠ ninf ∧ fmin (fmin b1 b2) b3 ≠ pinf := by
  have x12 := fmax_ne x1 y1
  have y12 := fmin_ne x2 y2
  have k1 : ∀ c, le (fmax (fmax a1 a2) a3) c = true ↔ (le a1 c = true ∧ le a2 c = true) ∧ le a3 c = true := by
    intro c; rw [Ext.fmax_le x12 z1, Ext.fmax_le x1 y1]
  have k2 : ∀ c, le c (fmin (fmin b1 b2) b3) = true ↔ (le c b1 = true ∧ le c b2 = true) ∧ le c b3 = true := by
    intro c; rw [Ext.le_fmin y12 z2, Ext.le_fmin x2 y2]
  have q1 : ∀ a : Ext K, le a ninf = true → a = ninf := by
    intro a; rcases a with _ | a | _ | _ <;> simp [le]
  have q2 : ∀ a : Ext K, le pinf a = true → a = pinf := by
    intro a; rcases a with _ | a | _ | _ <;> simp [le]
  refine ⟨fmax_ne x12 z1, fmin_ne y12 z2, ?_, ?_, ?_⟩
  · intro t; rw [k1, k2]; tauto
  · intro hh
    have h := (k1 ninf).1 (by rw [hh]; rfl)
    rcases hne with h' | h' | h'
    · exact h'.1 (q1 _ h.1.1)
    · exact h'.1 (q1 _ h.1.2)
    · exact h'.1 (q1 _ h.2)
  · intro hh
    have h := (k2 pinf).1 (by rw [hh]; rfl)
    rcases hne with h' | h' | h'
    · exact h'.2 (q2 _ h.1.1)
    · exact h'.2 (q2 _ h.1.2)
    · exact h'.2 (q2 _ h.2)

theorem Ray3.slabs_spec (nz : V3 Bool) (r : Ray3 K) (b : Aabb3 K) (hb : b.Valid) (hd : r.direction ≠ 0)
    (hx : r.direction.x = 0 → b.min.x < b.max.x) (hy : r.direction.y = 0 → b.min.y < b.max.y)
    (hz : r.direction.z = 0 → b.min.z < b.max.z) :
    ∃ tmin tmax, r.slabs nz b = (tmin, tmax) ∧ tmin ≠ nan ∧ tmax ≠ nan ∧
      (∀ t, r.LineIn b t ↔ le tmin (fin t) = true ∧ le (fin t) tmax = true) ∧ tmin ≠ ninf ∧ tmax ≠ pinf := by
  obtain ⟨x1, x2, x3, x4, -⟩ := slabT_spec (neg := nz.x) (o := r.origin.x) hb.1 hx
  obtain ⟨y1, y2, y3, y4, -⟩ := slabT_spec (neg := nz.y) (o := r.origin.y) hb.2.1 hy
  obtain ⟨z1, z2, z3, z4, -⟩ := slabT_spec (neg := nz.z) (o := r.origin.z) hb.2.2 hz
  have hne : r.direction.x ≠ 0 ∨ r.direction.y ≠ 0 ∨ r.direction.z ≠ 0 := by
    by_contra hh
    push Not at hh
    exact hd (V3.ext hh.1 hh.2.1 hh.2.2)
  obtain ⟨c1, c2, c3, c4, c5⟩ := combine3 x1 x2 y1 y2 z1 z2 (hne.imp x4 (Or.imp y4 z4))
  refine ⟨_, _, rfl, c1, c2, ?_, c4, c5⟩
  intro t
  rw [Ray3.LineIn, x3, y3, z3]
  exact c3 t

/-- C31: 3D ray against a normalised box that has positive width along the axes the ray is parallel to
(the code divides by zero there); same conclusions as C30, for either sign of the zero components. -/
theorem c31_ray_aabb3 (nz : V3 Bool) (r : Ray3 K) (b : Aabb3 K) (hb : b.Valid) (hd : r.direction ≠ 0)
    (hx : r.direction.x = 0 → b.min.x < b.max.x) (hy : r.direction.y = 0 → b.min.y < b.max.y)
    (hz : r.direction.z = 0 → b.min.z < b.max.z) :
    (r.intersectionAabb nz b = none ↔ ¬ ∃ t, r.Meets b t) ∧
    (r.intersectsAabb nz b = (r.intersectionAabb nz b).isSome) ∧
    (∀ q, r.intersectionAabb nz b = some q → ∃ t, r.Meets b t ∧ q = (r.at t).toExt ∧
      (¬ b.Mem r.origin → ∀ u, r.Meets b u → t ≤ u) ∧
      (b.IMem r.origin → ∀ u, r.Meets b u → u ≤ t)) := by
  unfold Ray3.intersectionAabb Ray3.intersectsAabb
  obtain ⟨tmin, tmax, e, n1, n2, hs, f1, f2⟩ := r.slabs_spec nz b hb hd hx hy hz
  rw [e]
  dsimp only
  obtain ⟨d1, d2, d3⟩ := decide_spec (r.LineIn b) n1 n2 hs f1 f2
  have hm : (∃ t, r.Meets b t) ↔ ∃ t, 0 ≤ t ∧ r.LineIn b t := by simp only [r.meets_iff]
  refine ⟨?_, ?_, ?_⟩
  · rw [hm, ← d1]
    cases ((lt tmin (fin 0) && lt tmax (fin 0)) || lt tmax tmin) <;> simp
  · rw [Bool.eq_iff_iff, d2, ← d1]
    cases ((lt tmin (fin 0) && lt tmax (fin 0)) || lt tmax tmin) <;> simp
  · intro q hq
    have hc : ((lt tmin (fin 0) && lt tmax (fin 0)) || lt tmax tmin) = false := by
      cases h : ((lt tmin (fin 0) && lt tmax (fin 0)) || lt tmax tmin) with
      | false => rfl
      | true => simp [h] at hq
    obtain ⟨t', h0, hp⟩ := d1.1 hc
    obtain ⟨t, k1, k2, k3, k4, k5⟩ := d3 t' h0 hp
    refine ⟨t, (r.meets_iff b t).2 ⟨k2, k3⟩, ?_, ?_, ?_⟩
    · simp only [hc, k1, atE3] at hq
      simp at hq
      exact hq.symm
    · intro ho u hu
      obtain ⟨u0, hu⟩ := (r.meets_iff b u).1 hu
      refine k5 ?_ u u0 hu
      rintro ⟨v, v0, hv⟩
      apply ho
      rw [hs] at hu hv
      have h0 : r.LineIn b 0 := (hs 0).2 ⟨Ext.le_trans hv.1 (by simp [le, v0.le]), Ext.le_trans (b := fin u) (by simp [le, u0]) hu.2⟩
      simp only [Ray3.LineIn, InSlab, mul_zero, add_zero] at h0
      exact ⟨h0.1.1, h0.2.1.1, h0.2.2.1⟩
    · intro hi u hu
      obtain ⟨u0, hu⟩ := (r.meets_iff b u).1 hu
      refine k4 ?_ u hu
      obtain ⟨e1, p1, q1⟩ := inSlab_before r.direction.x hi.1
      obtain ⟨e2, p2, q2⟩ := inSlab_before r.direction.y hi.2.1
      obtain ⟨e3, p3, q3⟩ := inSlab_before r.direction.z hi.2.2
      have hmin : 0 < min e1 (min e2 e3) := lt_min p1 (lt_min p2 p3)
      exact ⟨-min e1 (min e2 e3), by linarith, q1 _ (by simp) (by linarith), q2 _ (by simp) (by linarith),
        q3 _ (by simp) (by linarith)⟩

/-! ## C31 for flat boxes -/

/-- The ray meets the box at parameter `t`: the point is in the closed box and, in directions the ray is parallel to and the box is not
flat in, strictly between the faces. -/
def Ray3.MeetsF (r : Ray3 K) (b : Aabb3 K) (t : K) : Prop :=
  0 ≤ t ∧ b.Mem (r.at t) ∧
    (r.direction.x = 0 → b.min.x < b.max.x → b.min.x < r.origin.x ∧ r.origin.x < b.max.x) ∧
    (r.direction.y = 0 → b.min.y < b.max.y → b.min.y < r.origin.y ∧ r.origin.y < b.max.y) ∧
    (r.direction.z = 0 → b.min.z < b.max.z → b.min.z < r.origin.z ∧ r.origin.z < b.max.z)

/-- `InSlab`, where a flat slab is met by the rays inside it. -/
def InSlabF (lo hi o d t : K) : Prop := (lo ≤ o + d * t ∧ o + d * t ≤ hi) ∧ (d = 0 → lo < hi → lo < o ∧ o < hi)

/-- One 3D axis in every case: both values are NaN, and the ray is inside the flat slab, or the interval is right. -/
theorem slabT_specF {neg : Bool} {lo hi o d : K} (h : lo ≤ hi) :
    let s := slabT neg lo hi o d
    (d = 0 ∧ fmin s.1 s.2 = nan ∧ fmax s.1 s.2 = nan ∧ ∀ t, InSlabF lo hi o d t) ∨
    (fmin s.1 s.2 ≠ nan ∧ fmax s.1 s.2 ≠ nan ∧
      (∀ t, InSlabF lo hi o d t ↔ le (fmin s.1 s.2) (fin t) = true ∧ le (fin t) (fmax s.1 s.2) = true) ∧
      (d ≠ 0 → fmin s.1 s.2 ≠ ninf ∧ fmax s.1 s.2 ≠ pinf)) := by
  by_cases hf : d = 0 → lo < hi
  · right
    obtain ⟨h1, h2, h3, h4, -⟩ := slabT_spec (neg := neg) (o := o) h hf
    refine ⟨h1, h2, fun t => ?_, h4⟩
    rw [← h3]
    exact ⟨fun g => ⟨g.1, fun e => g.2 e (hf e)⟩, fun g => ⟨g.1, fun e _ => g.2 e⟩⟩
  · push Not at hf
    obtain ⟨rfl, hle⟩ := hf
    obtain rfl := le_antisymm h hle
    have hin : ∀ t, InSlabF lo lo o 0 t ↔ o = lo := by
      intro t; unfold InSlabF; rw [zero_mul, add_zero]
      exact ⟨fun h => le_antisymm h.1.2 h.1.1, fun h => ⟨⟨h.ge, h.le⟩, fun _ hh => absurd hh (lt_irrefl _)⟩⟩
    rcases lt_trichotomy o lo with h1 | rfl | h1
    · right
      have a1 : (0 < lo - o) := by linarith
      have a2 : ¬ (lo - o = 0) := by intro h; linarith
      simp only [hin]
      cases neg <;> simp [slabT, inv, mul, fmin, fmax, le, a1, a2, h1.ne]
    · left
      simp only [hin]
      cases neg <;> simp [slabT, inv, mul, fmin, fmax]
    · right
      have a1 : ¬ (0 < lo - o) := by linarith
      have a2 : ¬ (lo - o = 0) := by intro h; linarith
      simp only [hin]
      cases neg <;> simp [slabT, inv, mul, fmin, fmax, le, a1, a2, h1.ne']

/-- NaN counts as no bound. -/
theorem fmax3_nan {a1 a2 a3 : Ext K} (h : a1 ≠ nan ∨ a2 ≠ nan ∨ a3 ≠ nan) : fmax (fmax a1 a2) a3 =
    fmax (fmax (if a1 = nan then ninf else a1) (if a2 = nan then ninf else a2)) (if a3 = nan then ninf else a3) := by
  rcases a1 with _ | a1 | _ | _ <;> rcases a2 with _ | a2 | _ | _ <;> rcases a3 with _ | a3 | _ | _ <;> simp_all [fmax, le]
  split <;> simp
theorem fmin3_nan {a1 a2 a3 : Ext K} (h : a1 ≠ nan ∨ a2 ≠ nan ∨ a3 ≠ nan) : fmin (fmin a1 a2) a3 =
    fmin (fmin (if a1 = nan then pinf else a1) (if a2 = nan then pinf else a2)) (if a3 = nan then pinf else a3) := by
  rcases a1 with _ | a1 | _ | _ <;> rcases a2 with _ | a2 | _ | _ <;> rcases a3 with _ | a3 | _ | _ <;> simp_all [fmin, le]
  split <;> simp

/-- `slabT_specF` after replacing NaN by the infinite bound. -/
theorem slabT_clean {neg : Bool} {lo hi o d : K} (h : lo ≤ hi) :
    let s := slabT neg lo hi o d
    let a := if fmin s.1 s.2 = nan then ninf else fmin s.1 s.2
    let b := if fmax s.1 s.2 = nan then pinf else fmax s.1 s.2
    a ≠ nan ∧ b ≠ nan ∧ (∀ t, InSlabF lo hi o d t ↔ le a (fin t) = true ∧ le (fin t) b = true) ∧
      (d ≠ 0 → (fmin s.1 s.2 ≠ nan ∧ fmax s.1 s.2 ≠ nan) ∧ a ≠ ninf ∧ b ≠ pinf) := by
  rcases slabT_specF (neg := neg) (o := o) (d := d) h with ⟨e, h1, h2, h3⟩ | ⟨h1, h2, h3, h4⟩
  · simp only [h1, h2, if_true, h3]
    simp [le, e]
  · simp only [if_neg h1, if_neg h2]
    exact ⟨h1, h2, h3, fun e => ⟨⟨h1, h2⟩, h4 e⟩⟩

/-- The line of the ray is in the box at parameter `t`, in the sense of `MeetsF`. -/
def Ray3.LineInF (r : Ray3 K) (b : Aabb3 K) (t : K) : Prop :=
  InSlabF b.min.x b.max.x r.origin.x r.direction.x t ∧ InSlabF b.min.y b.max.y r.origin.y r.direction.y t ∧
  InSlabF b.min.z b.max.z r.origin.z r.direction.z t

theorem Ray3.meetsF_iff (r : Ray3 K) (b : Aabb3 K) (t : K) : r.MeetsF b t ↔ 0 ≤ t ∧ r.LineInF b t := by
  simp only [Ray3.MeetsF, Ray3.LineInF, InSlabF, Aabb3.Mem, Ray3.at, V3.add_x, V3.add_y, V3.add_z, V3.mul_x, V3.mul_y, V3.mul_z]; tauto

theorem Ray3.slabs_specF (nz : V3 Bool) (r : Ray3 K) (b : Aabb3 K) (hb : b.Valid) (hd : r.direction ≠ 0) :
    ∃ tmin tmax, r.slabs nz b = (tmin, tmax) ∧ tmin ≠ nan ∧ tmax ≠ nan ∧
      (∀ t, r.LineInF b t ↔ le tmin (fin t) = true ∧ le (fin t) tmax = true) ∧ tmin ≠ ninf ∧ tmax ≠ pinf := by
  obtain ⟨x1, x2, x3, x4⟩ := slabT_clean (neg := nz.x) (o := r.origin.x) (d := r.direction.x) hb.1
  obtain ⟨y1, y2, y3, y4⟩ := slabT_clean (neg := nz.y) (o := r.origin.y) (d := r.direction.y) hb.2.1
  obtain ⟨z1, z2, z3, z4⟩ := slabT_clean (neg := nz.z) (o := r.origin.z) (d := r.direction.z) hb.2.2
  have hne : r.direction.x ≠ 0 ∨ r.direction.y ≠ 0 ∨ r.direction.z ≠ 0 := by
    by_contra hh
    push Not at hh
    exact hd (V3.ext hh.1 hh.2.1 hh.2.2)
  obtain ⟨c1, c2, c3, c4, c5⟩ := combine3 x1 x2 y1 y2 z1 z2
    (hne.imp (fun e => (x4 e).2) (Or.imp (fun e => (y4 e).2) (fun e => (z4 e).2)))
  rw [← fmax3_nan (hne.imp (fun e => (x4 e).1.1) (Or.imp (fun e => (y4 e).1.1) (fun e => (z4 e).1.1)))] at c1 c3 c4
  rw [← fmin3_nan (hne.imp (fun e => (x4 e).1.2) (Or.imp (fun e => (y4 e).1.2) (fun e => (z4 e).1.2)))] at c2 c5
  simp only [← fmin3_nan (hne.imp (fun e => (x4 e).1.2) (Or.imp (fun e => (y4 e).1.2) (fun e => (z4 e).1.2)))] at c3
  refine ⟨_, _, rfl, c1, c2, ?_, c4, c5⟩
  intro t
  rw [Ray3.LineInF, x3, y3, z3]
  exact c3 t

/-- C31 for every normalised box, flat ones included: the code divides by zero, but every resulting NaN is dropped by `min` and `max`. A hit
is the (finite) point of the ray at some `t ≥ 0` at which the ray meets the box; the first such point if the ray starts outside, the
last one if the line was in the box already before the origin. -/
theorem c31_ray_flat3 (nz : V3 Bool) (r : Ray3 K) (b : Aabb3 K) (hb : b.Valid) (hd : r.direction ≠ 0) :
    (r.intersectionAabb nz b = none ↔ ¬ ∃ t, r.MeetsF b t) ∧
    (r.intersectsAabb nz b = (r.intersectionAabb nz b).isSome) ∧
    (∀ q, r.intersectionAabb nz b = some q → ∃ t, r.MeetsF b t ∧ q = (r.at t).toExt ∧
      (¬ b.Mem r.origin → ∀ u, 0 ≤ u → b.Mem (r.at u) → t ≤ u) ∧
      ((∃ u < 0, b.Mem (r.at u)) → ∀ u, b.Mem (r.at u) → u ≤ t)) := by
  unfold Ray3.intersectionAabb Ray3.intersectsAabb
  obtain ⟨tmin, tmax, e, n1, n2, hs, f1, f2⟩ := r.slabs_specF nz b hb hd
  rw [e]
  dsimp only
  obtain ⟨d1, d2, d3⟩ := decide_spec (r.LineInF b) n1 n2 hs f1 f2
  have hm : (∃ t, r.MeetsF b t) ↔ ∃ t, 0 ≤ t ∧ r.LineInF b t := by simp only [r.meetsF_iff]
  refine ⟨?_, ?_, ?_⟩
  · rw [hm, ← d1]
    cases ((lt tmin (fin 0) && lt tmax (fin 0)) || lt tmax tmin) <;> simp
  · rw [Bool.eq_iff_iff, d2, ← d1]
    cases ((lt tmin (fin 0) && lt tmax (fin 0)) || lt tmax tmin) <;> simp
  · intro q hq
    have hc : ((lt tmin (fin 0) && lt tmax (fin 0)) || lt tmax tmin) = false := by
      cases h : ((lt tmin (fin 0) && lt tmax (fin 0)) || lt tmax tmin) with
      | false => rfl
      | true => simp [h] at hq
    obtain ⟨t', h0, hp⟩ := d1.1 hc
    obtain ⟨t, k1, k2, k3, k4, k5⟩ := d3 t' h0 hp
    have lift : ∀ u, b.Mem (r.at u) → r.LineInF b u := by
      intro u hu
      simp only [Aabb3.Mem, Ray3.at, V3.add_x, V3.add_y, V3.add_z, V3.mul_x, V3.mul_y, V3.mul_z] at hu
      exact ⟨⟨hu.1, k3.1.2⟩, ⟨hu.2.1, k3.2.1.2⟩, hu.2.2, k3.2.2.2⟩
    refine ⟨t, (r.meetsF_iff b t).2 ⟨k2, k3⟩, ?_, ?_, ?_⟩
    · simp only [hc, k1, atE3] at hq
      simp at hq
      exact hq.symm
    · intro ho u u0 hu
      refine k5 ?_ u u0 (lift u hu)
      rintro ⟨v, v0, hv⟩
      apply ho
      have hu := lift u hu
      rw [hs] at hu hv
      have h0 : r.LineInF b 0 := (hs 0).2 ⟨Ext.le_trans hv.1 (by simp [le, v0.le]), Ext.le_trans (b := fin u) (by simp [le, u0]) hu.2⟩
      simp only [Ray3.LineInF, InSlabF, mul_zero, add_zero] at h0
      exact ⟨h0.1.1, h0.2.1.1, h0.2.2.1⟩
    · rintro ⟨v, v0, hv⟩ u hu
      exact k4 ⟨v, v0, lift v hv⟩ u (lift u hu)

/-- A ray running inside a flat box. -/
example (nz : V3 Bool) : (⟨⟨-1, 1, 0⟩, ⟨1, 0, 0⟩⟩ : Ray3 ℚ).intersectionAabb nz ⟨⟨0, 0, 0⟩, ⟨2, 2, 0⟩⟩ = some (V3.toExt ⟨0, 1, 0⟩) ∧
    (⟨⟨0, 0, 0⟩, ⟨2, 2, 0⟩⟩ : Aabb3 ℚ).Valid := by
  refine ⟨?_, ⟨by norm_num, by norm_num, by norm_num⟩⟩
  obtain ⟨x, y, z⟩ := nz
  cases x <;> cases y <;> cases z <;> decide +kernel

/-! ## Monotonicity and non-vacuity -/

omit [IsStrictOrderedRing K] in
/-- Enlarging the box keeps hits. -/
theorem Ray2.Meets.mono {r : Ray2 K} {a b : Aabb2 K} {t : K} (h : r.Meets b t) (hab : a.contains b = true) :
    r.Meets a t := by
  simp only [Aabb2.contains, Bool.and_eq_true, decide_eq_true_eq] at hab
  obtain ⟨⟨⟨g1, g2⟩, g3⟩, g4⟩ := hab
  obtain ⟨h0, ⟨⟨h1, h2⟩, h3, h4⟩, h5, h6⟩ := h
  exact ⟨h0, ⟨⟨g1.trans h1, h2.trans g3⟩, g2.trans h3, h4.trans g4⟩,
    fun h => ⟨g1.trans_lt (h5 h).1, (h5 h).2.trans_le g3⟩, fun h => ⟨g2.trans_lt (h6 h).1, (h6 h).2.trans_le g4⟩⟩

omit [IsStrictOrderedRing K] in
/-- Enlarging the box keeps hits. -/
theorem Ray3.Meets.mono {r : Ray3 K} {a b : Aabb3 K} {t : K} (h : r.Meets b t) (hab : a.contains b = true) :
    r.Meets a t := by
  simp only [Aabb3.contains, Bool.and_eq_true, decide_eq_true_eq] at hab
  obtain ⟨⟨⟨⟨⟨g1, g2⟩, g3⟩, g4⟩, g5⟩, g6⟩ := hab
  obtain ⟨h0, ⟨⟨h1, h2⟩, ⟨h3, h4⟩, h5, h6⟩, h7, h8, h9⟩ := h
  exact ⟨h0, ⟨⟨g1.trans h1, h2.trans g4⟩, ⟨g2.trans h3, h4.trans g5⟩, g3.trans h5, h6.trans g6⟩,
    fun h => ⟨g1.trans_lt (h7 h).1, (h7 h).2.trans_le g4⟩, fun h => ⟨g2.trans_lt (h8 h).1, (h8 h).2.trans_le g5⟩,
    fun h => ⟨g3.trans_lt (h9 h).1, (h9 h).2.trans_le g6⟩⟩

/-- An axis parallel ray entering a box from outside: all hypotheses of C30 hold, and it hits at the entry. -/
example : (⟨⟨-1, 1⟩, ⟨1, 0⟩⟩ : Ray2 ℚ).intersectionAabb ⟨⟨0, 0⟩, ⟨2, 2⟩⟩ = some (V2.toExt ⟨0, 1⟩) ∧
    (⟨⟨0, 0⟩, ⟨2, 2⟩⟩ : Aabb2 ℚ).Valid ∧ (⟨⟨-1, 1⟩, ⟨1, 0⟩⟩ : Ray2 ℚ).direction ≠ 0 := by
  refine ⟨by decide +kernel, ⟨by norm_num, by norm_num⟩, fun h => ?_⟩
  have := congrArg V2.x h
  simp at this

/-- The same in 3D, from inside: the exit point is reported. -/
example (nz : V3 Bool) : (⟨⟨1, 1, 1⟩, ⟨1, 0, 0⟩⟩ : Ray3 ℚ).intersectionAabb nz ⟨⟨0, 0, 0⟩, ⟨2, 2, 2⟩⟩ = some (V3.toExt ⟨2, 1, 1⟩) ∧
    (⟨⟨0, 0, 0⟩, ⟨2, 2, 2⟩⟩ : Aabb3 ℚ).Valid ∧ (⟨⟨1, 1, 1⟩, ⟨1, 0, 0⟩⟩ : Ray3 ℚ).direction ≠ 0 := by
  refine ⟨?_, ⟨by norm_num, by norm_num, by norm_num⟩, fun h => ?_⟩
  · obtain ⟨x, y, z⟩ := nz
    cases x <;> cases y <;> cases z <;> decide +kernel
  · have := congrArg V3.x h
    simp at this

/-- C31, the positive-width hypothesis is needed: a ray inside the plane of a flat box is reported as a
hit (NaN is ignored), although a box enclosing it is not hit. So the test is not monotone on flat
boxes. -/
theorem c31_flat_not_monotone : ∃ (r : Ray3 ℚ) (a b : Aabb3 ℚ), r.direction ≠ 0 ∧ a.Valid ∧ b.Valid ∧
    a.contains b = true ∧ ∀ nz, (r.intersectionAabb nz b).isSome = true ∧ r.intersectionAabb nz a = none := by
  refine ⟨⟨⟨-1, 1, 0⟩, ⟨1, 0, 0⟩⟩, ⟨⟨0, 0, 0⟩, ⟨2, 2, 2⟩⟩, ⟨⟨0, 0, 0⟩, ⟨2, 2, 0⟩⟩, ?_,
    ⟨by norm_num, by norm_num, by norm_num⟩, ⟨by norm_num, by norm_num, by norm_num⟩, by decide +kernel, ?_⟩
  · intro h
    have := congrArg V3.x h
    simp at this
  · rintro ⟨x, y, z⟩
    cases x <;> cases y <;> cases z <;> decide +kernel

end Verif.Geom
