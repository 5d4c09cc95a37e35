import Verif.Dbvt.RoundedSphere
import Verif.Dbvt.RoundedExact
/-!
# C99, 3D rays with NaN

The 3D ray test multiplies by the inverse of the direction without testing for zero, so along an axis with direction zero it computes with infinities, and with NaN where the origin lies in
the plane of a face. Here the rounded test of `Dbvt/Rounded` is written once more with NaN (`none`).
-/
namespace Verif.Dbvt
open Verif Geom
set_option linter.unusedSectionVars false
noncomputable section
open Classical
variable {F : Type} [LinearOrder F] (R : Rounding F)

/-- Numbers, infinities and NaN (`none`). -/
abbrev WithNan (F : Type) := Option F

/-- IEEE `-` -/
def Rounding.subN (a b : F) : WithNan F := if (a = R.inf ∧ b = R.inf) ∨ (a = R.ninf ∧ b = R.ninf) then none else some (R.sub a b)
/-- IEEE `+` -/
def Rounding.addN : WithNan F → WithNan F → WithNan F
  | some a, some b => if (a = R.inf ∧ b = R.ninf) ∨ (a = R.ninf ∧ b = R.inf) then none else some (R.add a b)
  | _, _ => none
/-- IEEE `*`: zero times an infinity is NaN. -/
def Rounding.mulN : WithNan F → WithNan F → WithNan F
  | some a, some b => if (a = R.zero ∧ (b = R.inf ∨ b = R.ninf)) ∨ ((a = R.inf ∨ a = R.ninf) ∧ b = R.zero) then none else some (R.mul a b)
  | _, _ => none
/-- IEEE `1 / d`; `neg` is the sign bit of a zero `d`. -/
def Rounding.invN (neg : Bool) (d : F) : F := if d = R.zero then (if neg then R.ninf else R.inf) else R.div R.one d
/-- `Float::min`: the other operand if one is NaN -/
def nmin : WithNan F → WithNan F → WithNan F
  | none, b => b
  | a, none => a
  | some a, some b => some (min a b)
/-- `Float::max` -/
def nmax : WithNan F → WithNan F → WithNan F
  | none, b => b
  | a, none => a
  | some a, some b => some (max a b)
/-- IEEE `≤` -/
def nle : WithNan F → WithNan F → Bool
  | some a, some b => decide (a ≤ b)
  | _, _ => false
/-- IEEE `<` -/
def nlt : WithNan F → WithNan F → Bool
  | some a, some b => decide (a < b)
  | _, _ => false

/-- One axis, `src/volume/aabb/aabb3.rs:185-189, 192-196` -/
def slabN (neg : Bool) (lo hi o d : F) : WithNan F × WithNan F :=
  let t1 := R.mulN (R.subN lo o) (some (R.invN neg d))
  let t2 := R.mulN (R.subN hi o) (some (R.invN neg d))
  (nmin t1 t2, nmax t1 t2)
/-- `(tmin, tmax)` at the end of the 3D tests, `src/volume/aabb/aabb3.rs:183-197, 220-234`; `nz` are the sign bits of the direction components. -/
def slabsN3 (nz : V3 Bool) (o d : V3 F) (b : Aabb3 F) : WithNan F × WithNan F :=
  let tx := slabN R nz.x b.min.x b.max.x o.x d.x
  let ty := slabN R nz.y b.min.y b.max.y o.y d.y
  let tz := slabN R nz.z b.min.z b.max.z o.z d.z
  (nmax (nmax tx.1 ty.1) tz.1, nmin (nmin tx.2 ty.2) tz.2)
/-- `Discrete<Aabb3> for Ray3`, `src/volume/aabb/aabb3.rs:217-237` -/
def intersectsN3 (nz : V3 Bool) (o d : V3 F) (b : Aabb3 F) : Bool :=
  let t := slabsN3 R nz o d b
  nle t.1 t.2 && (nle (some R.zero) t.1 || nle (some R.zero) t.2)
/-- `Continuous<Aabb3> for Ray3`, `src/volume/aabb/aabb3.rs:180-205` -/
def intersectionN3 (nz : V3 Bool) (o d : V3 F) (b : Aabb3 F) : Option (V3 (WithNan F)) :=
  let t := slabsN3 R nz o d b
  if (nlt t.1 (some R.zero) && nlt t.2 (some R.zero)) || nlt t.2 t.1 then none
  else
    let u := if nle (some R.zero) t.1 then t.1 else t.2
    some ⟨R.addN (some o.x) (R.mulN (some d.x) u), R.addN (some o.y) (R.mulN (some d.y) u), R.addN (some o.z) (R.mulN (some d.z) u)⟩

/-! ## Monotonicity -/

/-- What the operations need along one axis: a finite origin, and an inverse of the direction that is not zero (it is zero for an infinite direction only). -/
structure AxisOk (neg : Bool) (o d : F) : Prop where
  fin : o ≠ R.inf ∧ o ≠ R.ninf
  inv : R.invN neg d ≠ R.zero

theorem Rounding.le_inf (a : F) : a ≤ R.inf := (R.val_le _ _).1 (by rw [R.val_inf]; exact le_top)
theorem Rounding.ninf_le (a : F) : R.ninf ≤ a := (R.val_le _ _).1 (by rw [R.val_ninf]; exact bot_le)
theorem Rounding.val_eq {a : F} {x : EReal} (h : R.val a = x) : R.rnd x = a := by rw [← h, R.rnd_val]
theorem Rounding.val_inj {a b : F} (h : R.val a = R.val b) : a = b := le_antisymm ((R.val_le _ _).1 h.le) ((R.val_le _ _).1 h.ge)

theorem Rounding.mul_inf {s : F} (h : R.zero < s) : R.mul s R.inf = R.inf := by
  have : (0 : EReal) < R.val s := by
    rw [← R.val_zero]; exact lt_of_not_ge fun h' => absurd ((R.val_le _ _).1 h') (not_le.2 h)
  unfold Rounding.mul
  rw [R.val_inf, EReal.mul_top_of_pos this]
  exact R.val_eq R.val_inf
theorem Rounding.mul_inf_neg {s : F} (h : s < R.zero) : R.mul s R.inf = R.ninf := by
  have : R.val s < (0 : EReal) := by
    rw [← R.val_zero]; exact lt_of_not_ge fun h' => absurd ((R.val_le _ _).1 h') (not_le.2 h)
  unfold Rounding.mul
  rw [R.val_inf, EReal.mul_top_of_neg this]
  exact R.val_eq R.val_ninf
theorem Rounding.mul_ninf {s : F} (h : R.zero < s) : R.mul s R.ninf = R.ninf := by
  have : (0 : EReal) < R.val s := by
    rw [← R.val_zero]; exact lt_of_not_ge fun h' => absurd ((R.val_le _ _).1 h') (not_le.2 h)
  unfold Rounding.mul
  rw [R.val_ninf, EReal.mul_bot_of_pos this]
  exact R.val_eq R.val_ninf
theorem Rounding.mul_ninf_neg {s : F} (h : s < R.zero) : R.mul s R.ninf = R.inf := by
  have : R.val s < (0 : EReal) := by
    rw [← R.val_zero]; exact lt_of_not_ge fun h' => absurd ((R.val_le _ _).1 h') (not_le.2 h)
  unfold Rounding.mul
  rw [R.val_ninf, EReal.mul_bot_of_neg this]
  exact R.val_eq R.val_inf

theorem subN_some {lo o : F} (h : o ≠ R.inf ∧ o ≠ R.ninf) : R.subN lo o = some (R.sub lo o) := by
  unfold Rounding.subN
  rw [if_neg]
  rintro (⟨-, h'⟩ | ⟨-, h'⟩)
  · exact h.1 h'
  · exact h.2 h'

/-- An interval with the infinite inverse `±inf`, from the signs of the two differences `s ≤ t`, not both zero. -/
theorem infinite_slab {s t : F} (hst : s ≤ t) (hn : ¬ (s = R.zero ∧ t = R.zero)) :
    (∃ a b, nmin (R.mulN (some s) (some R.inf)) (R.mulN (some t) (some R.inf)) = some a ∧ nmax (R.mulN (some s) (some R.inf)) (R.mulN (some t) (some R.inf)) = some b ∧
      a = (if s < R.zero then R.ninf else R.inf) ∧ b = (if R.zero < t then R.inf else R.ninf)) ∧
    (∃ a b, nmin (R.mulN (some s) (some R.ninf)) (R.mulN (some t) (some R.ninf)) = some a ∧ nmax (R.mulN (some s) (some R.ninf)) (R.mulN (some t) (some R.ninf)) = some b ∧
      a = (if R.zero < t then R.ninf else R.inf) ∧ b = (if s < R.zero then R.inf else R.ninf)) := by
  have z1 : R.inf ≠ R.zero := fun e => by have := congrArg R.val e; rw [R.val_inf, R.val_zero] at this; exact absurd this (by simp)
  have z2 : R.ninf ≠ R.zero := fun e => by have := congrArg R.val e; rw [R.val_ninf, R.val_zero] at this; exact absurd this (by simp)
  have m0 : ∀ b, (b = R.inf ∨ b = R.ninf) → R.mulN (some R.zero) (some b) = none := by
    intro b hb; unfold Rounding.mulN; dsimp only; rw [if_pos (Or.inl ⟨rfl, hb⟩)]
  have m1 : ∀ s b, s ≠ R.zero → (b = R.inf ∨ b = R.ninf) → R.mulN (some s) (some b) = some (R.mul s b) := by
    intro s b hs hb
    unfold Rounding.mulN
    dsimp only
    rw [if_neg]
    rintro (⟨h, -⟩ | ⟨-, h⟩)
    · exact hs h
    · rcases hb with rfl | rfl
      · exact z1 h
      · exact z2 h
  have li : R.ninf ≤ R.inf := R.le_inf _
  rcases lt_trichotomy s R.zero with hs | hs | hs
  · rcases lt_trichotomy t R.zero with ht | ht | ht
    · rw [m1 _ _ hs.ne (Or.inl rfl), m1 _ _ ht.ne (Or.inl rfl), m1 _ _ hs.ne (Or.inr rfl), m1 _ _ ht.ne (Or.inr rfl), R.mul_inf_neg hs, R.mul_inf_neg ht, R.mul_ninf_neg hs, R.mul_ninf_neg ht,
        if_pos hs, if_pos hs, if_neg (not_lt.2 ht.le), if_neg (not_lt.2 ht.le)]
      exact ⟨⟨_, _, rfl, rfl, min_self _, max_self _⟩, _, _, rfl, rfl, min_self _, max_self _⟩
    · rw [ht, m0 _ (Or.inl rfl), m0 _ (Or.inr rfl), m1 _ _ hs.ne (Or.inl rfl), m1 _ _ hs.ne (Or.inr rfl), R.mul_inf_neg hs, R.mul_ninf_neg hs, if_pos hs, if_pos hs, if_neg (lt_irrefl _), if_neg (lt_irrefl _)]
      exact ⟨⟨_, _, rfl, rfl, rfl, rfl⟩, _, _, rfl, rfl, rfl, rfl⟩
    · rw [m1 _ _ hs.ne (Or.inl rfl), m1 _ _ ht.ne' (Or.inl rfl), m1 _ _ hs.ne (Or.inr rfl), m1 _ _ ht.ne' (Or.inr rfl), R.mul_inf_neg hs, R.mul_inf ht, R.mul_ninf_neg hs, R.mul_ninf ht,
        if_pos hs, if_pos hs, if_pos ht, if_pos ht]
      exact ⟨⟨_, _, rfl, rfl, min_eq_left li, max_eq_right li⟩, _, _, rfl, rfl, min_eq_right li, max_eq_left li⟩
  · have ht : R.zero < t := lt_of_le_of_ne (hs ▸ hst) fun e => hn ⟨hs, e.symm⟩
    rw [hs, m0 _ (Or.inl rfl), m0 _ (Or.inr rfl), m1 _ _ ht.ne' (Or.inl rfl), m1 _ _ ht.ne' (Or.inr rfl), R.mul_inf ht, R.mul_ninf ht, if_pos ht, if_pos ht, if_neg (lt_irrefl _), if_neg (lt_irrefl _)]
    exact ⟨⟨_, _, rfl, rfl, rfl, rfl⟩, _, _, rfl, rfl, rfl, rfl⟩
  · have ht := hs.trans_le hst
    rw [m1 _ _ hs.ne' (Or.inl rfl), m1 _ _ ht.ne' (Or.inl rfl), m1 _ _ hs.ne' (Or.inr rfl), m1 _ _ ht.ne' (Or.inr rfl), R.mul_inf hs, R.mul_inf ht, R.mul_ninf hs, R.mul_ninf ht,
      if_neg (not_lt.2 hs.le), if_neg (not_lt.2 hs.le), if_pos ht, if_pos ht]
    exact ⟨⟨_, _, rfl, rfl, min_self _, max_self _⟩, _, _, rfl, rfl, min_self _, max_self _⟩

/-- Growing a box grows the interval of one axis; no NaN remains. -/
theorem slabN_mono {neg : Bool} {o d : F} (hok : AxisOk R neg o d) {lo hi lo' hi' : F} (h1 : lo' ≤ lo) (h2 : lo ≤ hi) (h3 : hi ≤ hi')
    (hn : ¬ (R.sub lo o = R.zero ∧ R.sub hi o = R.zero)) :
    ∃ a b a' b', slabN R neg lo hi o d = (some a, some b) ∧ slabN R neg lo' hi' o d = (some a', some b') ∧ a' ≤ a ∧ b ≤ b' := by
  have s1 := R.sub_mono o h1
  have s2 := R.sub_mono o h2
  have s3 := R.sub_mono o h3
  simp only at s1 s2 s3
  have hn' : ¬ (R.sub lo' o = R.zero ∧ R.sub hi' o = R.zero) := by
    rintro ⟨e1, e2⟩
    refine hn ⟨le_antisymm (s2.trans (s3.trans e2.le)) (e1 ▸ s1), le_antisymm (s3.trans e2.le) (e1 ▸ s1.trans s2)⟩
  unfold slabN
  simp only [subN_some R hok.fin]
  have key := infinite_slab R s2 hn
  have key' := infinite_slab R (s1.trans (s2.trans s3)) hn'
  have lo1 : R.sub lo o < R.zero → R.sub lo' o < R.zero := fun h => s1.trans_lt h
  have hi1 : R.zero < R.sub hi o → R.zero < R.sub hi' o := fun h => h.trans_le s3
  have q1 : (if R.sub lo' o < R.zero then R.ninf else R.inf) ≤ (if R.sub lo o < R.zero then R.ninf else R.inf) := by
    by_cases h : R.sub lo o < R.zero
    · rw [if_pos h, if_pos (lo1 h)]
    · rw [if_neg h]; exact R.le_inf _
  have q2 : (if R.zero < R.sub hi o then R.inf else R.ninf) ≤ (if R.zero < R.sub hi' o then R.inf else R.ninf) := by
    by_cases h : R.zero < R.sub hi o
    · rw [if_pos h, if_pos (hi1 h)]
    · rw [if_neg h]; exact R.ninf_le _
  have q3 : (if R.zero < R.sub hi' o then R.ninf else R.inf) ≤ (if R.zero < R.sub hi o then R.ninf else R.inf) := by
    by_cases h : R.zero < R.sub hi o
    · rw [if_pos h, if_pos (hi1 h)]
    · rw [if_neg h]; exact R.le_inf _
  have q4 : (if R.sub lo o < R.zero then R.inf else R.ninf) ≤ (if R.sub lo' o < R.zero then R.inf else R.ninf) := by
    by_cases h : R.sub lo o < R.zero
    · rw [if_pos h, if_pos (lo1 h)]
    · rw [if_neg h]; exact R.ninf_le _
  by_cases hi1 : R.invN neg d = R.inf
  · rw [hi1]
    obtain ⟨⟨a, b, e1, e2, e3, e4⟩, -⟩ := key
    obtain ⟨⟨a', b', e1', e2', e3', e4'⟩, -⟩ := key'
    rw [e1, e2, e1', e2']
    exact ⟨a, b, a', b', rfl, rfl, by rw [e3, e3']; exact q1, by rw [e4, e4']; exact q2⟩
  by_cases hi2 : R.invN neg d = R.ninf
  · rw [hi2]
    obtain ⟨-, a, b, e1, e2, e3, e4⟩ := key
    obtain ⟨-, a', b', e1', e2', e3', e4'⟩ := key'
    rw [e1, e2, e1', e2']
    exact ⟨a, b, a', b', rfl, rfl, by rw [e3, e3']; exact q3, by rw [e4, e4']; exact q4⟩
  have m : ∀ s, R.mulN (some s) (some (R.invN neg d)) = some (R.mul s (R.invN neg d)) := by
    intro s
    unfold Rounding.mulN
    dsimp only
    rw [if_neg]
    rintro (⟨-, h | h⟩ | ⟨-, h⟩)
    · exact hi1 h
    · exact hi2 h
    · exact hok.inv h
  rw [m, m, m, m]
  obtain ⟨g1, g2⟩ := slabF_mono R h1 h2 h3 o (R.invN neg d)
  exact ⟨_, _, _, _, rfl, rfl, g1, g2⟩

/-- The conditions on a ray. -/
structure RayOk (nz : V3 Bool) (o d : V3 F) : Prop where
  x : AxisOk R nz.x o.x d.x
  y : AxisOk R nz.y o.y d.y
  z : AxisOk R nz.z o.z d.z
/-- Along no axis is the box, seen from the origin of the ray, flat and at distance zero. -/
structure Thick (o : V3 F) (b : Aabb3 F) : Prop where
  x : ¬ (R.sub b.min.x o.x = R.zero ∧ R.sub b.max.x o.x = R.zero)
  y : ¬ (R.sub b.min.y o.y = R.zero ∧ R.sub b.max.y o.y = R.zero)
  z : ¬ (R.sub b.min.z o.z = R.zero ∧ R.sub b.max.z o.z = R.zero)

theorem slabsN3_mono {nz : V3 Bool} {o d : V3 F} (hr : RayOk R nz o d) {big small : Aabb3 F} (hv : small.Valid) (ht : Thick R o small) (hc : big.contains small = true) :
    ∃ a b a' b', slabsN3 R nz o d small = (some a, some b) ∧ slabsN3 R nz o d big = (some a', some b') ∧ a' ≤ a ∧ b ≤ b' := by
  obtain ⟨⟨x1, x2⟩, ⟨y1, y2⟩, z1, z2⟩ := contains_iff3.1 hc
  obtain ⟨a, b, a', b', e, e', g1, g2⟩ := slabN_mono R hr.x x1 hv.1 x2 ht.x
  obtain ⟨c, k, c', k', f, f', g3, g4⟩ := slabN_mono R hr.y y1 hv.2.1 y2 ht.y
  obtain ⟨m, n, m', n', i, i', g5, g6⟩ := slabN_mono R hr.z z1 hv.2.2 z2 ht.z
  unfold slabsN3
  rw [e, e', f, f', i, i']
  exact ⟨_, _, _, _, rfl, rfl, max_le_max (max_le_max g1 g3) g5, min_le_min (min_le_min g2 g4) g6⟩

/-- **C99, monotonicity with NaN.** A hit on a box that is not flat is a hit on every larger box, for every ray, components zero included. -/
theorem c99_mono_nan3 {nz : V3 Bool} {o d : V3 F} (hr : RayOk R nz o d) {big small : Aabb3 F} (hv : small.Valid) (ht : Thick R o small) (hc : big.contains small = true) :
    (intersectsN3 R nz o d small = true → intersectsN3 R nz o d big = true) ∧ ((intersectionN3 R nz o d small).isSome = true → (intersectionN3 R nz o d big).isSome = true) := by
  obtain ⟨a, b, a', b', e, e', g1, g2⟩ := slabsN3_mono R hr hv ht hc
  constructor
  · intro h
    unfold intersectsN3 at h ⊢
    rw [e] at h
    rw [e']
    simp only [nle, Bool.and_eq_true, decide_eq_true_eq, Bool.or_eq_true] at h ⊢
    obtain ⟨q1, q2⟩ := hit_mono g1 g2 h.1 h.2
    exact ⟨q1, Or.inr q2⟩
  · intro h
    unfold intersectionN3 at h ⊢
    rw [e] at h
    rw [e']
    dsimp only at h ⊢
    split at h
    · cases h
    · rename_i hn
      simp only [nlt, Bool.or_eq_true, Bool.and_eq_true, decide_eq_true_eq] at hn ⊢
      push Not at hn
      have q2 : R.zero ≤ a ∨ R.zero ≤ b := by
        by_contra hcon
        push Not at hcon
        exact absurd (hn.1 hcon.1) (not_le.2 hcon.2)
      obtain ⟨r1, r2⟩ := hit_mono g1 g2 hn.2 q2
      rw [if_neg (by push Not; exact ⟨fun _ => r2, r1⟩)]
      rfl

/-! ## Without rounding: the test of C31 -/

/-- Numbers, infinities and NaN of the exact test. -/
def extN : Ext ℝ → WithNan EReal
  | .fin x => some x
  | .pinf => some ⊤
  | .ninf => some ⊥
  | .nan => none

theorem extN_le (a b : Ext ℝ) : nle (extN a) (extN b) = Ext.le a b := by
  cases a <;> cases b <;> simp [nle, extN, Ext.le]
theorem extN_lt (a b : Ext ℝ) : nlt (extN a) (extN b) = Ext.lt a b := by
  cases a <;> cases b <;> simp [nlt, extN, Ext.lt]
theorem extN_min (a b : Ext ℝ) : nmin (extN a) (extN b) = extN (Ext.fmin a b) := by
  cases a with
  | nan => simp [Ext.fmin]; cases b <;> rfl
  | fin x =>
    cases b with
    | fin y =>
      simp only [Ext.fmin, reduceCtorEq, if_false, nmin, extN, Ext.le]
      by_cases h : x ≤ y <;> simp [h, min_def]
    | _ => simp [Ext.fmin, nmin, extN, Ext.le]
  | _ => cases b <;> simp [Ext.fmin, nmin, extN, Ext.le]
theorem extN_max (a b : Ext ℝ) : nmax (extN a) (extN b) = extN (Ext.fmax a b) := by
  cases a with
  | nan => simp [Ext.fmax]; cases b <;> rfl
  | fin x =>
    cases b with
    | fin y =>
      simp only [Ext.fmax, reduceCtorEq, if_false, nmax, extN, Ext.le]
      by_cases h : x ≤ y <;> simp [h, max_def]
    | _ => simp [Ext.fmax, nmax, extN, Ext.le]
  | _ => cases b <;> simp [Ext.fmax, nmax, extN, Ext.le]
theorem extN_mul (a b : Ext ℝ) : exactR.mulN (extN a) (extN b) = extN (Ext.mul a b) := by
  cases a <;> cases b <;> simp [extN, Ext.mul, Rounding.mulN, Rounding.mul, exactR]
  all_goals
    rename_i x
    rcases lt_trichotomy x 0 with h | h | h
    · simp [h.ne, not_lt.2 h.le, EReal.bot_mul_coe_of_neg h, EReal.top_mul_coe_of_neg h, EReal.coe_mul_bot_of_neg h, EReal.coe_mul_top_of_neg h]
    · simp [h]
    · simp [h.ne', h, EReal.bot_mul_coe_of_pos h, EReal.top_mul_coe_of_pos h, EReal.coe_mul_bot_of_pos h, EReal.coe_mul_top_of_pos h]
theorem extN_add (a b : Ext ℝ) : exactR.addN (extN a) (extN b) = extN (Ext.add a b) := by
  cases a <;> cases b <;> simp [extN, Ext.add, Rounding.addN, Rounding.add, exactR]
theorem extN_sub (a b : ℝ) : exactR.subN (a : EReal) (b : EReal) = extN (.fin (a - b)) := by
  simp [Rounding.subN, Rounding.sub, exactR, extN]
theorem extN_inv (neg : Bool) (d : ℝ) : some (exactR.invN neg (d : EReal)) = extN (Ext.inv neg d) := by
  unfold Rounding.invN Ext.inv
  by_cases h : d = 0
  · subst h
    cases neg <;> simp [exactR, extN]
  · have h' : ¬ ((d : ℝ) : EReal) = exactR.zero := by simpa [exactR] using h
    rw [if_neg h', if_neg h]
    simp only [Rounding.div, exactR, id, extN]
    rw [← EReal.coe_one, ← EReal.coe_div]
theorem extN_slabs (nz : V3 Bool) (r : Ray3 ℝ) (b : Aabb3 ℝ) :
    slabsN3 exactR nz (V3.ereal r.origin) (V3.ereal r.direction) (box3E b) = (extN (r.slabs nz b).1, extN (r.slabs nz b).2) := by
  unfold slabsN3 Ray3.slabs slabN slabT
  simp only [V3.ereal, box3E, extN_inv, extN_sub, extN_mul, extN_min, extN_max]

/-- Without rounding, these are the tests of C31, for every ray and every box, NaN included. -/
theorem c99_exact_nan3 (nz : V3 Bool) (r : Ray3 ℝ) (b : Aabb3 ℝ) :
    intersectsN3 exactR nz (V3.ereal r.origin) (V3.ereal r.direction) (box3E b) = r.intersectsAabb nz b ∧
    intersectionN3 exactR nz (V3.ereal r.origin) (V3.ereal r.direction) (box3E b) = (r.intersectionAabb nz b).map fun p => ⟨extN p.x, extN p.y, extN p.z⟩ := by
  have hz : some exactR.zero = extN (.fin 0) := rfl
  constructor
  · unfold intersectsN3 Ray3.intersectsAabb
    rw [extN_slabs, hz]
    simp only [extN_le]
  · unfold intersectionN3 Ray3.intersectionAabb
    rw [extN_slabs, hz]
    dsimp only
    simp only [extN_le, extN_lt]
    split
    · rfl
    · have hf : ∀ x : ℝ, some ((x : ℝ) : EReal) = extN (.fin x) := fun _ => rfl
      simp only [V3.ereal, hf, ← apply_ite extN, extN_mul, extN_add, Option.map_some, Ray3.atE]
end
end Verif.Dbvt
