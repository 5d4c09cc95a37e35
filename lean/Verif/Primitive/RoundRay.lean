import Verif.Primitive.Enum
/-!
# Rays against capsules and cylinders: model of `src/primitive/capsule.rs:87-202`, `src/primitive/cylinder.rs:104-232`
and `src/primitive/util.rs:116-135`; C71, C72, C73, C74

The quadratic solver divides by `a = dx² + dz²`.  For `a = 0` both quotients are `0 / 0`, NaN, in every case
(`b = 0` and the discriminant is `0`).  A float that may be NaN is an `Option ℝ` here, with `none` for NaN; every
comparison with NaN is false.
-/
namespace Verif.Primitive
open Verif Geom
set_option linter.unusedSectionVars false
noncomputable section

/-- The coefficient `a`, `src/primitive/util.rs:122` -/
def Ray3.qa (r : Ray3 ℝ) : ℝ := r.direction.x * r.direction.x + r.direction.z * r.direction.z
/-- The coefficient `b`, `src/primitive/util.rs:123` -/
def Ray3.qb (r : Ray3 ℝ) : ℝ := 2 * (r.direction.x * r.origin.x + r.direction.z * r.origin.z)
/-- The coefficient `c`, `src/primitive/util.rs:124` -/
def Ray3.qc (r : Ray3 ℝ) (radius : ℝ) : ℝ := r.origin.x * r.origin.x + r.origin.z * r.origin.z - radius * radius

/-- `cylinder_ray_quadratic_solve`, `src/primitive/util.rs:116-135`; `some none` is a pair of NaN. -/
def quadSolve (r : Ray3 ℝ) (radius : ℝ) : Option (Option (ℝ × ℝ)) :=
  let a := Ray3.qa r
  let b := Ray3.qb r
  let c := Ray3.qc r radius
  let dr := b * b - 4 * a * c
  if dr < 0 then none
  else if a = 0 then some none
  else some (some ((-b + Real.sqrt dr) / (2 * a), (-b - Real.sqrt dr) / (2 * a)))

/-- `t1 < 0 && t2 < 0`, `src/primitive/capsule.rs:98, 147`, `src/primitive/cylinder.rs:121, 191` -/
def bothNeg : Option (ℝ × ℝ) → Prop
  | none => False
  | some (t1, t2) => t1 < 0 ∧ t2 < 0

/-- The choice of `t`, `src/primitive/capsule.rs:102-108, 151-157`, `src/primitive/cylinder.rs:125-131, 195-201` -/
def pick : Option (ℝ × ℝ) → Option ℝ
  | none => none
  | some (t1, t2) => some (if t1 < 0 then t2 else if t2 < 0 then t1 else min t1 t2)

/-- The test against one end sphere with centre `(0, s, 0)`, `src/primitive/capsule.rs:116-123, 126-133` -/
def capHit (radius s : ℝ) (r : Ray3 ℝ) : Prop :=
  let l : V3 ℝ := ⟨-r.origin.x, s - r.origin.y, -r.origin.z⟩
  let tca := l.dot r.direction
  0 < tca ∧ l.dot l - tca * tca ≤ radius * radius

/-- The side test `pc.y <= half_height && pc.y >= -half_height`, false for NaN, `src/primitive/capsule.rs:110-113`, `src/primitive/cylinder.rs:133-136` -/
def sideHit (h : ℝ) (r : Ray3 ℝ) : Option ℝ → Prop
  | none => False
  | some t => (r.origin + r.direction * t).y ≤ h ∧ -h ≤ (r.origin + r.direction * t).y

open Classical in
/-- `Discrete<Ray3> for Capsule`, `src/primitive/capsule.rs:91-136` -/
def Capsule.intersectsRay (s : Capsule) (r : Ray3 ℝ) : Bool :=
  match quadSolve r s.radius with
  | none => false
  | some q =>
    if bothNeg q then false
    else if sideHit s.halfHeight r (pick q) then true
    else if capHit s.radius s.halfHeight r then true
    else if capHit s.radius (-s.halfHeight) r then true
    else false

/-- The update of `t` by one end sphere, `src/primitive/capsule.rs:160-171, 174-185` -/
def capUpdate (radius s : ℝ) (r : Ray3 ℝ) (t : Option ℝ) : Option ℝ :=
  let l : V3 ℝ := ⟨-r.origin.x, s - r.origin.y, -r.origin.z⟩
  let tca := l.dot r.direction
  let d2 := l.dot l - tca * tca
  let t0 := tca - Real.sqrt (radius * radius - d2)
  if 0 < tca then
    if d2 ≤ radius * radius then
      match t with
      | none => if 0 ≤ t0 then some t0 else none
      | some u => if 0 ≤ t0 ∧ t0 < u then some t0 else some u
    else t
  else t

open Classical in
/-- `Continuous<Ray3> for Capsule`, `src/primitive/capsule.rs:144-202` -/
def Capsule.intersectionRay (s : Capsule) (r : Ray3 ℝ) : Option (V3 ℝ) :=
  match quadSolve r s.radius with
  | none => none
  | some q =>
    if bothNeg q then none
    else
      match capUpdate s.radius (-s.halfHeight) r (capUpdate s.radius s.halfHeight r (pick q)) with
      | none => none
      | some t =>
        let pc := r.origin + r.direction * t
        if s.halfHeight + s.radius < pc.y ∨ pc.y < -(s.halfHeight + s.radius) then none else some pc

/-- `tp = -(half_height + origin.dot(n)) / direction.dot(n)` with `n = -unit_y`, `src/primitive/cylinder.rs:138-139, 203-204`; `none` where the float is infinite or NaN (`dy = 0`): the point computed from it then has infinite or NaN `x`, `z` and fails the radius test -/
def tTop (h : ℝ) (r : Ray3 ℝ) : Option ℝ :=
  if r.direction.y = 0 then none else some (-(h + r.origin.dot ⟨0, -1, 0⟩) / r.direction.dot ⟨0, -1, 0⟩)
/-- `tb = -(-half_height + origin.dot(n)) / direction.dot(n)` with `n = unit_y`, `src/primitive/cylinder.rs:147-148, 212-213` -/
def tBottom (h : ℝ) (r : Ray3 ℝ) : Option ℝ :=
  if r.direction.y = 0 then none else some (-(-h + r.origin.dot ⟨0, 1, 0⟩) / r.direction.dot ⟨0, 1, 0⟩)

/-- `p.x * p.x + p.z * p.z < radius * radius`, `src/primitive/cylinder.rs:142, 151, 207, 216` -/
def InDiscAt (radius : ℝ) (r : Ray3 ℝ) (t : ℝ) : Prop :=
  let p := r.origin + r.direction * t
  p.x * p.x + p.z * p.z < radius * radius

/-- The test against one end disc, `src/primitive/cylinder.rs:140-145, 149-154` -/
def discHit (radius : ℝ) (r : Ray3 ℝ) : Option ℝ → Prop
  | none => False
  | some t => 0 ≤ t ∧ InDiscAt radius r t

open Classical in
/-- `Discrete<Ray3> for Cylinder`, `src/primitive/cylinder.rs:108-157` -/
def Cylinder.intersectsRay (s : Cylinder) (r : Ray3 ℝ) : Bool :=
  if r.direction.x = 0 ∧ r.direction.z = 0 then
    if r.direction.y = 0 then false
    else decide ((-s.halfHeight ≤ r.origin.y ∧ r.direction.y ≤ 0) ∨ (r.origin.y ≤ s.halfHeight ∧ 0 ≤ r.direction.y))
  else
    match quadSolve r s.radius with
    | none => false
    | some q =>
      if bothNeg q then false
      else if sideHit s.halfHeight r (pick q) then true
      else if discHit s.radius r (tTop s.halfHeight r) then true
      else if discHit s.radius r (tBottom s.halfHeight r) then true
      else false

open Classical in
/-- The update of `t` by one end disc, `src/primitive/cylinder.rs:205-210, 214-219` -/
def discUpdate (radius : ℝ) (r : Ray3 ℝ) (tp : Option ℝ) (t : ℝ) : ℝ :=
  match tp with
  | none => t
  | some u => if 0 ≤ u ∧ u < t then (if InDiscAt radius r u then u else t) else t

open Classical in
/-- `Continuous<Ray3> for Cylinder`, `src/primitive/cylinder.rs:165-228` (`pick` of a NaN pair does not occur here, since the direction is not axial) -/
def Cylinder.intersectionRay (s : Cylinder) (r : Ray3 ℝ) : Option (V3 ℝ) :=
  if r.direction.x = 0 ∧ r.direction.z = 0 then
    if r.direction.y = 0 then none
    else if s.halfHeight ≤ r.origin.y ∧ r.direction.y < 0 then some ⟨0, s.halfHeight, 0⟩
    else if -s.halfHeight ≤ r.origin.y ∧ r.direction.y < 0 then some ⟨0, -s.halfHeight, 0⟩
    else if r.origin.y ≤ -s.halfHeight ∧ 0 < r.direction.y then some ⟨0, -s.halfHeight, 0⟩
    else if r.origin.y ≤ s.halfHeight ∧ 0 < r.direction.y then some ⟨0, s.halfHeight, 0⟩
    else none
  else
    match quadSolve r s.radius with
    | none => none
    | some q =>
      if bothNeg q then none
      else
        match pick q with
        | none => none
        | some t =>
          let t := discUpdate s.radius r (tTop s.halfHeight r) t
          let t := discUpdate s.radius r (tBottom s.halfHeight r) t
          let pc := r.origin + r.direction * t
          if s.halfHeight < pc.y ∨ pc.y < -s.halfHeight then none else some pc

/-! ## Specification -/

/-- Specification: the cylinder of radius `R` around the `y` axis, unbounded in `y`. -/
def InTube (R : ℝ) (p : V3 ℝ) : Prop := p.x * p.x + p.z * p.z ≤ R * R

/-- Specification: the ray points along the `y` axis. -/
def Axial (r : Ray3 ℝ) : Prop := r.direction.x = 0 ∧ r.direction.z = 0

/-! ## The quadratic -/

theorem qa_zero (r : Ray3 ℝ) : Ray3.qa r = 0 ↔ Axial r := by
  unfold Ray3.qa Axial
  constructor
  · intro h; constructor <;> nlinarith [mul_self_nonneg r.direction.x, mul_self_nonneg r.direction.z]
  · rintro ⟨h1, h2⟩; simp [h1, h2]

theorem qa_pos {r : Ray3 ℝ} (h : ¬ Axial r) : 0 < Ray3.qa r := by
  have h1 : Ray3.qa r ≠ 0 := fun e => h ((qa_zero r).1 e)
  have h2 : 0 ≤ Ray3.qa r := by unfold Ray3.qa; nlinarith [mul_self_nonneg r.direction.x, mul_self_nonneg r.direction.z]
  exact lt_of_le_of_ne h2 (Ne.symm h1)

theorem tube_poly (r : Ray3 ℝ) (R t : ℝ) : (r.at t).x * (r.at t).x + (r.at t).z * (r.at t).z - R * R =
    Ray3.qa r * (t * t) + Ray3.qb r * t + Ray3.qc r R := by
  simp only [Ray3.at, Ray3.qa, Ray3.qb, Ray3.qc, V3.add_x, V3.add_z, V3.mul_x, V3.mul_z]; ring

theorem quad_none {r : Ray3 ℝ} {R : ℝ} (h : quadSolve r R = none) (t : ℝ) : ¬ InTube R (r.at t) := by
  unfold quadSolve at h
  dsimp only at h
  split at h
  · rename_i hd
    have ha : Ray3.qa r ≠ 0 := by
      intro e
      have hb : Ray3.qb r = 0 := by
        obtain ⟨h1, h2⟩ := (qa_zero r).1 e
        simp [Ray3.qb, h1, h2]
      rw [e, hb] at hd; norm_num at hd
    have ha' := qa_pos (fun hx => ha ((qa_zero r).2 hx))
    unfold InTube
    have := tube_poly r R t
    intro hle
    have h0 : Ray3.qa r * (t * t) + Ray3.qb r * t + Ray3.qc r R ≤ 0 := by linarith
    nlinarith [mul_self_nonneg (2 * Ray3.qa r * t + Ray3.qb r), mul_le_mul_of_nonneg_left h0 ha'.le]
  · split at h <;> cases h

theorem quad_nan {r : Ray3 ℝ} {R : ℝ} (h : quadSolve r R = some none) : Axial r := by
  unfold quadSolve at h
  dsimp only at h
  split at h
  · cases h
  · split at h
    · rename_i ha; exact (qa_zero r).1 ha
    · cases h

theorem quad_axial {r : Ray3 ℝ} (h : Axial r) (R : ℝ) : quadSolve r R = some none := by
  unfold quadSolve
  have hb : Ray3.qb r = 0 := by obtain ⟨h1, h2⟩ := h; simp [Ray3.qb, h1, h2]
  rw [(qa_zero r).2 h, hb]; norm_num

theorem quad_some {r : Ray3 ℝ} {R t1 t2 : ℝ} (h : quadSolve r R = some (some (t1, t2))) :
    0 < Ray3.qa r ∧ t2 ≤ t1 ∧ ∀ t, (r.at t).x * (r.at t).x + (r.at t).z * (r.at t).z - R * R = Ray3.qa r * ((t - t1) * (t - t2)) := by
  unfold quadSolve at h
  dsimp only at h
  split at h
  · cases h
  · rename_i hd
    push Not at hd
    split at h
    · cases h
    · rename_i ha
      have ha' := qa_pos (fun hx => ha ((qa_zero r).2 hx))
      simp only [Option.some.injEq, Prod.mk.injEq] at h
      obtain ⟨e1, e2⟩ := h
      have hs := Real.mul_self_sqrt hd
      have hs0 := Real.sqrt_nonneg (Ray3.qb r * Ray3.qb r - 4 * Ray3.qa r * Ray3.qc r R)
      set s := Real.sqrt (Ray3.qb r * Ray3.qb r - 4 * Ray3.qa r * Ray3.qc r R)
      refine ⟨ha', ?_, fun t => ?_⟩
      · rw [← e1, ← e2]; gcongr; linarith
      · rw [tube_poly, ← e1, ← e2]
        field_simp
        nlinarith

/-- What the solver and the choice of `t` find out about the tube. -/
theorem pick_some {r : Ray3 ℝ} {R t1 t2 : ℝ} (h : quadSolve r R = some (some (t1, t2))) (hn : ¬ bothNeg (some (t1, t2))) :
    ∃ t0, pick (some (t1, t2)) = some t0 ∧ 0 ≤ t0 ∧ (r.at t0).x * (r.at t0).x + (r.at t0).z * (r.at t0).z = R * R ∧
      ((t2 < 0 ∧ t0 = t1) ∨ (0 ≤ t2 ∧ t0 = t2)) := by
  obtain ⟨ha, hle, hf⟩ := quad_some h
  unfold bothNeg at hn
  have h1 : 0 ≤ t1 := by by_contra hc; push Not at hc; exact hn ⟨hc, by linarith⟩
  refine ⟨_, rfl, ?_⟩
  rw [if_neg (not_lt.2 h1)]
  by_cases h2 : t2 < 0
  · rw [if_pos h2]
    refine ⟨h1, ?_, .inl ⟨h2, rfl⟩⟩
    have := hf t1; rw [sub_self, zero_mul, mul_zero] at this; linarith
  · rw [if_neg h2, min_eq_right hle]
    push Not at h2
    refine ⟨h2, ?_, .inr ⟨h2, rfl⟩⟩
    have := hf t2; rw [sub_self, mul_zero, mul_zero] at this; linarith

theorem tube_iff {r : Ray3 ℝ} {R t1 t2 : ℝ} (h : quadSolve r R = some (some (t1, t2))) (t : ℝ) :
    InTube R (r.at t) ↔ t2 ≤ t ∧ t ≤ t1 := by
  obtain ⟨ha, hle, hf⟩ := quad_some h
  unfold InTube
  rw [← sub_nonpos, hf t]
  constructor
  · intro hx
    have : (t - t1) * (t - t2) ≤ 0 := by by_contra hc; push Not at hc; nlinarith [mul_pos ha hc]
    constructor
    · by_contra hc; push Not at hc; nlinarith
    · by_contra hc; push Not at hc; nlinarith
  · rintro ⟨h1, h2⟩
    have : (t - t1) * (t - t2) ≤ 0 := by nlinarith
    nlinarith

theorem tube_strict {r : Ray3 ℝ} {R t1 t2 : ℝ} (h : quadSolve r R = some (some (t1, t2))) (t : ℝ) :
    InDiscAt R r t ↔ t2 < t ∧ t < t1 := by
  obtain ⟨ha, hle, hf⟩ := quad_some h
  show (r.at t).x * (r.at t).x + (r.at t).z * (r.at t).z < R * R ↔ _
  rw [← sub_neg, hf t]
  constructor
  · intro hx
    have : (t - t1) * (t - t2) < 0 := by by_contra hc; push Not at hc; nlinarith [mul_nonneg ha.le hc]
    constructor
    · by_contra hc; push Not at hc; nlinarith
    · by_contra hc; push Not at hc; nlinarith
  · rintro ⟨h1, h2⟩
    have : (t - t1) * (t - t2) < 0 := by nlinarith
    nlinarith

theorem at_y (r : Ray3 ℝ) (t : ℝ) : (r.at t).y = r.origin.y + r.direction.y * t := rfl

/-- The height along the ray takes every value between two of its values. -/
theorem y_cross (r : Ray3 ℝ) {a b v : ℝ} (h1 : (r.at a).y ≤ v) (h2 : v ≤ (r.at b).y) : ∃ t, min a b ≤ t ∧ t ≤ max a b ∧ (r.at t).y = v := by
  simp only [at_y] at *
  by_cases hd : r.direction.y = 0
  · refine ⟨a, min_le_left _ _, le_max_left _ _, ?_⟩
    rw [hd] at h1 h2 ⊢; linarith
  · refine ⟨(v - r.origin.y) / r.direction.y, ?_, ?_, by field_simp; ring⟩
    · rcases lt_or_gt_of_ne hd with hd | hd
      · rw [min_le_iff]; right; rw [le_div_iff_of_neg hd]; nlinarith
      · rw [min_le_iff]; left; rw [le_div_iff₀ hd]; nlinarith
    · rcases lt_or_gt_of_ne hd with hd | hd
      · rw [le_max_iff]; left; rw [div_le_iff_of_neg hd]; nlinarith
      · rw [le_max_iff]; right; rw [div_le_iff₀ hd]; nlinarith

/-! ## Balls at the ends of a capsule -/

theorem ball_iff {R : ℝ} (hR : 0 ≤ R) (s : ℝ) (p : V3 ℝ) : (p - ⟨0, s, 0⟩).norm ≤ R ↔ p.x * p.x + (p.y - s) * (p.y - s) + p.z * p.z ≤ R * R := by
  rw [V3.norm_le_iff _ hR]
  simp only [V3.dot, V3.sub_x, V3.sub_y, V3.sub_z, sub_zero]

theorem ball_poly (r : Ray3 ℝ) (hd : r.direction.dot r.direction = 1) (s t : ℝ) :
    (r.at t).x * (r.at t).x + ((r.at t).y - s) * ((r.at t).y - s) + (r.at t).z * (r.at t).z =
    (⟨-r.origin.x, s - r.origin.y, -r.origin.z⟩ : V3 ℝ).dot ⟨-r.origin.x, s - r.origin.y, -r.origin.z⟩ -
      2 * t * (⟨-r.origin.x, s - r.origin.y, -r.origin.z⟩ : V3 ℝ).dot r.direction + t * t := by
  simp only [Ray3.at, V3.dot, V3.add_x, V3.add_y, V3.add_z, V3.mul_x, V3.mul_y, V3.mul_z] at *
  linear_combination (t * t) * hd

theorem capHit_sound {R s : ℝ} (hR : 0 ≤ R) {r : Ray3 ℝ} (hd : r.direction.dot r.direction = 1) (h : capHit R s r) :
    ∃ t, 0 ≤ t ∧ (r.at t - ⟨0, s, 0⟩).norm ≤ R := by
  unfold capHit at h
  obtain ⟨h1, h2⟩ := h
  refine ⟨_, h1.le, ?_⟩
  rw [ball_iff hR, ball_poly r hd]
  nlinarith

theorem capHit_complete {R s : ℝ} (hR : 0 ≤ R) {r : Ray3 ℝ} (hd : r.direction.dot r.direction = 1) {t : ℝ} (ht : 0 ≤ t)
    (hin : (r.at t - ⟨0, s, 0⟩).norm ≤ R) (hout : ¬ (r.origin - ⟨0, s, 0⟩).norm ≤ R) : capHit R s r := by
  rw [ball_iff hR, ball_poly r hd] at hin
  have h0 : r.origin = r.at 0 := by simp [Ray3.at, V3.ext_iff]
  rw [h0, ball_iff hR, ball_poly r hd] at hout
  unfold capHit
  dsimp only
  set l : V3 ℝ := ⟨-r.origin.x, s - r.origin.y, -r.origin.z⟩
  push Not at hout
  refine ⟨?_, by nlinarith [mul_self_nonneg (t - l.dot r.direction)]⟩
  by_contra hc
  push Not at hc
  nlinarith [mul_nonneg ht (neg_nonneg.2 hc), mul_nonneg ht ht]

/-- A capsule is two balls and the straight part between them. -/
theorem capsule_split {h R : ℝ} (hh : 0 ≤ h) (hR : 0 ≤ R) (p : V3 ℝ) : InCapsule h R p ↔
    (p - ⟨0, h, 0⟩).norm ≤ R ∨ (p - ⟨0, -h, 0⟩).norm ≤ R ∨ InCylinder h R p := by
  unfold InCapsule InCylinder
  constructor
  · rintro ⟨s, h1, h2, hs⟩
    rw [ball_iff hR] at hs
    rw [ball_iff hR, ball_iff hR]
    by_cases ha : h < p.y
    · left; nlinarith
    · by_cases hb : p.y < -h
      · right; left; nlinarith
      · right; right
        push Not at ha hb
        exact ⟨⟨hb, ha⟩, by nlinarith [mul_self_nonneg (p.y - s)]⟩
  · rintro (hx | hx | ⟨⟨h1, h2⟩, hx⟩)
    · exact ⟨h, by linarith, le_refl _, hx⟩
    · exact ⟨-h, le_refl _, by linarith, hx⟩
    · refine ⟨p.y, h1, h2, ?_⟩
      rw [ball_iff hR]; nlinarith

theorem capsule_tube {h R : ℝ} (hR : 0 ≤ R) {p : V3 ℝ} (hp : InCapsule h R p) : InTube R p := by
  obtain ⟨s, _, _, hs⟩ := hp
  rw [ball_iff hR] at hs
  unfold InTube
  nlinarith [mul_self_nonneg (p.y - s)]

theorem disc_ball {R s : ℝ} (hR : 0 ≤ R) {p : V3 ℝ} (hp : InTube R p) (hy : p.y = s) : (p - ⟨0, s, 0⟩).norm ≤ R := by
  rw [ball_iff hR, hy]; unfold InTube at hp; nlinarith

/-! ## C71: the capsule's discrete ray test -/

theorem capsule_true_iff (s : Capsule) (r : Ray3 ℝ) : s.intersectsRay r = true ↔
    ∃ q, quadSolve r s.radius = some q ∧ ¬ bothNeg q ∧
      (sideHit s.halfHeight r (pick q) ∨ capHit s.radius s.halfHeight r ∨ capHit s.radius (-s.halfHeight) r) := by
  unfold Capsule.intersectsRay
  split
  · rename_i hq; simp [hq]
  · rename_i q hq
    rw [hq]
    simp only [Option.some.injEq]
    by_cases h1 : bothNeg q
    · simp [h1]
    · by_cases h2 : sideHit s.halfHeight r (pick q)
      · simp [h1, h2]
      · by_cases h3 : capHit s.radius s.halfHeight r <;> by_cases h4 : capHit s.radius (-s.halfHeight) r <;> simp [h1, h2, h3, h4]

/-- **C71, soundness.** If the test answers yes, the ray meets the capsule, wherever it starts. -/
theorem c71_sound (s : Capsule) (hh : 0 ≤ s.halfHeight) (hR : 0 ≤ s.radius) (r : Ray3 ℝ) (hd : r.direction.norm = 1)
    (h : s.intersectsRay r = true) : ∃ t, 0 ≤ t ∧ InCapsule s.halfHeight s.radius (r.at t) := by
  have hd1 : r.direction.dot r.direction = 1 := by rw [← V3.norm_sq, hd]; norm_num
  obtain ⟨q, hq, hn, hx⟩ := (capsule_true_iff s r).1 h
  rcases hx with hx | hx | hx
  · match q, hq, hn, hx with
    | some (t1, t2), hq, hn, hx =>
      obtain ⟨t0, e, h0, hs, _⟩ := pick_some hq hn
      rw [e] at hx
      refine ⟨t0, h0, (capsule_split hh hR _).2 (.inr (.inr ⟨⟨hx.2, hx.1⟩, hs.le⟩))⟩
  · obtain ⟨t, h0, hb⟩ := capHit_sound hR hd1 hx
    exact ⟨t, h0, (capsule_split hh hR _).2 (.inl hb)⟩
  · obtain ⟨t, h0, hb⟩ := capHit_sound hR hd1 hx
    exact ⟨t, h0, (capsule_split hh hR _).2 (.inr (.inl hb))⟩

/-- A ray that reaches the capsule from outside of it reaches one of the end balls or passes the side test. -/
theorem capsule_reach (s : Capsule) (hh : 0 ≤ s.halfHeight) (hR : 0 ≤ s.radius) (r : Ray3 ℝ) {t0 u : ℝ}
    (htube : ∀ v, min t0 u ≤ v → v ≤ max t0 u → InTube s.radius (r.at v)) (hin : InCapsule s.halfHeight s.radius (r.at u))
    (hns : ¬ ((r.at t0).y ≤ s.halfHeight ∧ -s.halfHeight ≤ (r.at t0).y)) :
    ∃ v, min t0 u ≤ v ∧ v ≤ max t0 u ∧ ((r.at v - ⟨0, s.halfHeight, 0⟩).norm ≤ s.radius ∨ (r.at v - ⟨0, -s.halfHeight, 0⟩).norm ≤ s.radius) := by
  rcases (capsule_split hh hR _).1 hin with hb | hb | ⟨⟨hc1, hc2⟩, hc⟩
  · exact ⟨u, min_le_right _ _, le_max_right _ _, .inl hb⟩
  · exact ⟨u, min_le_right _ _, le_max_right _ _, .inr hb⟩
  · by_cases hy : s.halfHeight < (r.at t0).y
    · obtain ⟨v, a1, a2, a3⟩ := y_cross r (a := u) (b := t0) hc2 hy.le
      rw [min_comm] at a1; rw [max_comm] at a2
      exact ⟨v, a1, a2, .inl (disc_ball hR (htube v a1 a2) a3)⟩
    · have hy' : (r.at t0).y < -s.halfHeight := by
        by_contra hcon; push Not at hcon hy; exact hns ⟨hy, hcon⟩
      obtain ⟨v, a1, a2, a3⟩ := y_cross r (a := t0) (b := u) hy'.le hc1
      exact ⟨v, a1, a2, .inr (disc_ball hR (htube v a1 a2) a3)⟩

theorem axial_y {r : Ray3 ℝ} (hax : Axial r) (hd : r.direction.dot r.direction = 1) : r.direction.y * r.direction.y = 1 := by
  simp only [V3.dot, hax.1, hax.2] at hd; linarith

theorem axial_tube {r : Ray3 ℝ} (hax : Axial r) (R a b : ℝ) : InTube R (r.at a) ↔ InTube R (r.at b) := by
  simp [InTube, Ray3.at, hax.1, hax.2]

/-- **C71, completeness.** A ray that starts outside the capsule and meets it is reported. -/
theorem c71_complete (s : Capsule) (hh : 0 ≤ s.halfHeight) (hR : 0 ≤ s.radius) (r : Ray3 ℝ) (hd : r.direction.norm = 1)
    (hout : ¬ InCapsule s.halfHeight s.radius r.origin) (h : ∃ t, 0 ≤ t ∧ InCapsule s.halfHeight s.radius (r.at t)) :
    s.intersectsRay r = true := by
  have hd1 : r.direction.dot r.direction = 1 := by rw [← V3.norm_sq, hd]; norm_num
  obtain ⟨u, hu, hin⟩ := h
  rw [capsule_split hh hR] at hout
  push Not at hout
  obtain ⟨ho1, ho2, ho3⟩ := hout
  have htu := capsule_tube hR hin
  rw [capsule_true_iff]
  match hq : quadSolve r s.radius with
  | none => exact absurd htu (quad_none hq u)
  | some none =>
    refine ⟨none, rfl, fun h => h, ?_⟩
    have hax := quad_nan hq
    have h0 : r.origin = r.at 0 := by simp [Ray3.at, V3.ext_iff]
    have hns : ¬ ((r.at 0).y ≤ s.halfHeight ∧ -s.halfHeight ≤ (r.at 0).y) := by
      rintro ⟨a1, a2⟩
      apply ho3
      rw [h0]
      exact ⟨⟨a2, a1⟩, (axial_tube hax s.radius 0 u).2 htu⟩
    obtain ⟨v, a1, _, hv⟩ := capsule_reach s hh hR r (t0 := 0) (fun v _ _ => (axial_tube hax s.radius v u).2 htu) hin hns
    have hv0 : 0 ≤ v := le_trans (le_min (le_refl 0) hu) a1
    rcases hv with hv | hv
    · exact .inr (.inl (capHit_complete hR hd1 hv0 hv (not_le.2 ho1)))
    · exact .inr (.inr (capHit_complete hR hd1 hv0 hv (not_le.2 ho2)))
  | some (some (t1, t2)) =>
    obtain ⟨b1, b2⟩ := (tube_iff hq u).1 htu
    have hn : ¬ bothNeg (some (t1, t2)) := fun hx => by unfold bothNeg at hx; linarith [hx.1]
    refine ⟨_, rfl, hn, ?_⟩
    obtain ⟨t0, e, h0, hs, hcase⟩ := pick_some hq hn
    rw [e]
    by_cases hns : sideHit s.halfHeight r (some t0)
    · exact .inl hns
    · right
      have ht0 : t2 ≤ t0 ∧ t0 ≤ t1 := (tube_iff hq t0).1 hs.le
      obtain ⟨v, a1, a2, hv⟩ := capsule_reach s hh hR r (t0 := t0)
        (fun v c1 c2 => (tube_iff hq v).2 ⟨le_trans (le_min ht0.1 b1) c1, le_trans c2 (max_le ht0.2 b2)⟩) hin hns
      have hv0 : 0 ≤ v := le_trans (le_min h0 hu) a1
      rcases hv with hv | hv
      · exact .inl (capHit_complete hR hd1 hv0 hv (not_le.2 ho1))
      · exact .inr (capHit_complete hR hd1 hv0 hv (not_le.2 ho2))

/-- **C71.** For a ray that starts outside the capsule, the test is exact. -/
theorem c71_capsule (s : Capsule) (hh : 0 ≤ s.halfHeight) (hR : 0 ≤ s.radius) (r : Ray3 ℝ) (hd : r.direction.norm = 1)
    (hout : ¬ InCapsule s.halfHeight s.radius r.origin) :
    s.intersectsRay r = true ↔ ∃ t, 0 ≤ t ∧ InCapsule s.halfHeight s.radius (r.at t) :=
  ⟨c71_sound s hh hR r hd, c71_complete s hh hR r hd hout⟩

/-! ## C72: the capsule's continuous ray test -/

/-- Evaluating the solver on a ray whose roots are known. -/
theorem quad_eval {r : Ray3 ℝ} {R t1 t2 : ℝ} (ha : Ray3.qa r ≠ 0) (hle : t2 ≤ t1) (hb : Ray3.qb r = -(Ray3.qa r * (t1 + t2)))
    (hc : Ray3.qc r R = Ray3.qa r * (t1 * t2)) : quadSolve r R = some (some (t1, t2)) := by
  have ha' : 0 < Ray3.qa r := qa_pos (fun hx => ha ((qa_zero r).2 hx))
  unfold quadSolve
  dsimp only
  have e : Ray3.qb r * Ray3.qb r - 4 * Ray3.qa r * Ray3.qc r R = (Ray3.qa r * (t1 - t2)) * (Ray3.qa r * (t1 - t2)) := by
    rw [hb, hc]; ring
  rw [e, if_neg (not_lt.2 (mul_self_nonneg _)), if_neg ha, Real.sqrt_mul_self (mul_nonneg ha'.le (by linarith)), hb]
  congr 3
  · field_simp; ring
  · field_simp; ring

/-- The update by one end ball, for a ray that starts outside of that ball. -/
theorem capUpdate_eq {R s : ℝ} (hR : 0 ≤ R) {r : Ray3 ℝ} (hd : r.direction.dot r.direction = 1)
    (hout : ¬ (r.origin - ⟨0, s, 0⟩).norm ≤ R) (t : Option ℝ) :
    (∃ e, r.First (fun p => (p - ⟨0, s, 0⟩).norm ≤ R) e ∧ capUpdate R s r t = some (t.elim e (min e))) ∨
    ((¬ ∃ u, 0 ≤ u ∧ (r.at u - ⟨0, s, 0⟩).norm ≤ R) ∧ capUpdate R s r t = t) := by
  by_cases hc : capHit R s r
  · left
    have h0 : r.origin = r.at 0 := by simp [Ray3.at, V3.ext_iff]
    rw [h0, ball_iff hR, ball_poly r hd] at hout
    have hc' := hc
    unfold capHit at hc'
    dsimp only at hc'
    unfold capUpdate
    dsimp only
    set l : V3 ℝ := ⟨-r.origin.x, s - r.origin.y, -r.origin.z⟩ with hl
    set tca := l.dot r.direction with htca
    push Not at hout
    obtain ⟨c1, c2⟩ := hc'
    rw [if_pos c1, if_pos c2]
    have hs := Real.mul_self_sqrt (show 0 ≤ R * R - (l.dot l - tca * tca) by linarith)
    have hs0 := Real.sqrt_nonneg (R * R - (l.dot l - tca * tca))
    set q := Real.sqrt (R * R - (l.dot l - tca * tca))
    have hq : q ≤ tca := by by_contra hx; push Not at hx; nlinarith
    refine ⟨tca - q, ⟨by linarith, ?_, fun u hu hx => ?_⟩, ?_⟩
    · show (r.at (tca - q) - ⟨0, s, 0⟩).norm ≤ R
      rw [ball_iff hR, ball_poly r hd]; nlinarith
    · replace hx : (r.at u - ⟨0, s, 0⟩).norm ≤ R := hx
      rw [ball_iff hR, ball_poly r hd] at hx
      by_contra hy; push Not at hy
      nlinarith
    · cases t with
      | none => rw [if_pos (by linarith)]; rfl
      | some v =>
        dsimp only [Option.elim]
        by_cases hv : tca - q < v
        · rw [if_pos ⟨by linarith, hv⟩, min_eq_left hv.le]
        · rw [if_neg (fun hx => hv hx.2), min_eq_right (not_lt.1 hv)]
  · right
    refine ⟨?_, ?_⟩
    · rintro ⟨u, hu, hx⟩
      exact hc (capHit_complete hR hd hu hx hout)
    · unfold capHit at hc
      unfold capUpdate
      dsimp only at hc ⊢
      split
      · rename_i c1
        rw [if_neg (fun c2 => hc ⟨c1, c2⟩)]
      · rfl

theorem capsule_y {h R : ℝ} (hR : 0 ≤ R) {p : V3 ℝ} (hp : InCapsule h R p) : ¬ (h + R < p.y ∨ p.y < -(h + R)) := by
  obtain ⟨s, h1, h2, hs⟩ := hp
  rw [ball_iff hR] at hs
  rintro (hx | hx)
  · nlinarith [mul_self_nonneg p.x, mul_self_nonneg p.z]
  · nlinarith [mul_self_nonneg p.x, mul_self_nonneg p.z]

theorem first_unique {r : Ray3 ℝ} {S : V3 ℝ → Prop} {a b : ℝ} (h1 : r.First S a) (h2 : r.First S b) : a = b :=
  le_antisymm (h1.2.2 b h2.1 h2.2.1) (h2.2.2 a h1.1 h1.2.1)

/-- The two updates together: the least of the value so far and the first points of the two balls. -/
theorem capUpdate_two {h R : ℝ} (hR : 0 ≤ R) {r : Ray3 ℝ} (hd : r.direction.dot r.direction = 1)
    (ho1 : ¬ (r.origin - ⟨0, h, 0⟩).norm ≤ R) (ho2 : ¬ (r.origin - ⟨0, -h, 0⟩).norm ≤ R) (q : Option ℝ) :
    (capUpdate R (-h) r (capUpdate R h r q) = q ∧
      ¬ ∃ u, 0 ≤ u ∧ ((r.at u - ⟨0, h, 0⟩).norm ≤ R ∨ (r.at u - ⟨0, -h, 0⟩).norm ≤ R)) ∨
    ∃ e, r.First (fun p => (p - ⟨0, h, 0⟩).norm ≤ R ∨ (p - ⟨0, -h, 0⟩).norm ≤ R) e ∧
      capUpdate R (-h) r (capUpdate R h r q) = some (q.elim e (min e)) := by
  rcases capUpdate_eq hR hd ho1 q with ⟨e1, f1, u1⟩ | ⟨n1, u1⟩ <;> rw [u1]
  · right
    rcases capUpdate_eq hR hd ho2 (some (q.elim e1 (min e1))) with ⟨e2, f2, u2⟩ | ⟨n2, u2⟩ <;> rw [u2]
    · refine ⟨min e2 e1, ⟨le_min f2.1 f1.1, ?_, ?_⟩, ?_⟩
      · rcases le_total e2 e1 with hle | hle
        · rw [min_eq_left hle]; exact .inr f2.2.1
        · rw [min_eq_right hle]; exact .inl f1.2.1
      · rintro u hu (hx | hx)
        · exact le_trans (min_le_right _ _) (f1.2.2 u hu hx)
        · exact le_trans (min_le_left _ _) (f2.2.2 u hu hx)
      · cases q with
        | none => rfl
        | some v => simp only [Option.elim, min_assoc]
    · refine ⟨e1, ⟨f1.1, .inl f1.2.1, ?_⟩, rfl⟩
      rintro u hu (hx | hx)
      · exact f1.2.2 u hu hx
      · exact absurd ⟨u, hu, hx⟩ n2
  · rcases capUpdate_eq hR hd ho2 q with ⟨e2, f2, u2⟩ | ⟨n2, u2⟩ <;> rw [u2]
    · right
      refine ⟨e2, ⟨f2.1, .inr f2.2.1, ?_⟩, rfl⟩
      rintro u hu (hx | hx)
      · exact absurd ⟨u, hu, hx⟩ n1
      · exact f2.2.2 u hu hx
    · left
      refine ⟨rfl, ?_⟩
      rintro ⟨u, hu, hx | hx⟩
      · exact n1 ⟨u, hu, hx⟩
      · exact n2 ⟨u, hu, hx⟩

theorem capsule_inter_eval {s : Capsule} {r : Ray3 ℝ} {q : Option (ℝ × ℝ)} {t : ℝ} (hq : quadSolve r s.radius = some q) (hn : ¬ bothNeg q)
    (ht : capUpdate s.radius (-s.halfHeight) r (capUpdate s.radius s.halfHeight r (pick q)) = some t) (hR : 0 ≤ s.radius)
    (hin : InCapsule s.halfHeight s.radius (r.at t)) : s.intersectionRay r = some (r.at t) := by
  unfold Capsule.intersectionRay
  rw [hq]
  dsimp only
  rw [if_neg hn, ht]
  dsimp only
  exact if_neg (capsule_y hR hin)

/-- **C72, partial.** A ray that starts outside the capsule and meets it gets its first point of the capsule, provided that it starts
inside the unbounded tube around the capsule (or runs along the axis), or that the first point of the tube on it is on the straight side. -/
theorem c72_capsule_partial (s : Capsule) (hh : 0 ≤ s.halfHeight) (hR : 0 ≤ s.radius) (r : Ray3 ℝ) (hd : r.direction.norm = 1)
    (hout : ¬ InCapsule s.halfHeight s.radius r.origin) (h : ∃ t, 0 ≤ t ∧ InCapsule s.halfHeight s.radius (r.at t))
    (hcase : Axial r ∨ r.origin.x * r.origin.x + r.origin.z * r.origin.z < s.radius * s.radius ∨
      (¬ InTube s.radius r.origin ∧ ∃ t, r.First (InTube s.radius) t ∧ -s.halfHeight ≤ (r.at t).y ∧ (r.at t).y ≤ s.halfHeight)) :
    ∃ t, r.First (InCapsule s.halfHeight s.radius) t ∧ s.intersectionRay r = some (r.at t) := by
  have hd1 : r.direction.dot r.direction = 1 := by rw [← V3.norm_sq, hd]; norm_num
  obtain ⟨u, hu, hin⟩ := h
  have h0 : r.origin = r.at 0 := by simp [Ray3.at, V3.ext_iff]
  have ho := hout
  rw [capsule_split hh hR] at ho
  push Not at ho
  obtain ⟨ho1, ho2, ho3⟩ := ho
  have hb := capUpdate_two (h := s.halfHeight) hR hd1 (not_le.2 ho1) (not_le.2 ho2)
  have htu := capsule_tube hR hin
  -- from inside the tube, the first point of the capsule is the first point of the two balls
  have key : (∀ v, 0 ≤ v → ∀ w, 0 ≤ w → w ≤ v → InTube s.radius (r.at v) → InTube s.radius (r.at w)) →
      (∃ v, 0 ≤ v ∧ ((r.at v - ⟨0, s.halfHeight, 0⟩).norm ≤ s.radius ∨ (r.at v - ⟨0, -s.halfHeight, 0⟩).norm ≤ s.radius)) ∧
      ∀ e, r.First (fun p => (p - ⟨0, s.halfHeight, 0⟩).norm ≤ s.radius ∨ (p - ⟨0, -s.halfHeight, 0⟩).norm ≤ s.radius) e →
        r.First (InCapsule s.halfHeight s.radius) e := by
    intro hconv
    have hns : ¬ ((r.at 0).y ≤ s.halfHeight ∧ -s.halfHeight ≤ (r.at 0).y) := by
      rintro ⟨a1, a2⟩
      apply ho3; rw [h0]
      exact ⟨⟨a2, a1⟩, hconv u hu 0 (le_refl 0) hu htu⟩
    have reach : ∀ v, 0 ≤ v → InCapsule s.halfHeight s.radius (r.at v) → ∃ w, 0 ≤ w ∧ w ≤ v ∧
        ((r.at w - ⟨0, s.halfHeight, 0⟩).norm ≤ s.radius ∨ (r.at w - ⟨0, -s.halfHeight, 0⟩).norm ≤ s.radius) := by
      intro v hv hx
      obtain ⟨w, a1, a2, a3⟩ := capsule_reach s hh hR r (t0 := 0) (u := v)
        (fun w c1 c2 => by rw [min_eq_left hv] at c1; rw [max_eq_right hv] at c2; exact hconv v hv w c1 c2 (capsule_tube hR hx)) hx hns
      rw [min_eq_left hv] at a1; rw [max_eq_right hv] at a2
      exact ⟨w, a1, a2, a3⟩
    refine ⟨?_, fun e he => ⟨he.1, ?_, fun v hv hx => ?_⟩⟩
    · obtain ⟨w, a1, _, a3⟩ := reach u hu hin; exact ⟨w, a1, a3⟩
    · rcases he.2.1 with hx | hx
      · exact (capsule_split hh hR _).2 (.inl hx)
      · exact (capsule_split hh hR _).2 (.inr (.inl hx))
    · obtain ⟨w, a1, a2, a3⟩ := reach v hv hx
      exact le_trans (he.2.2 w a1 a3) a2
  match hq : quadSolve r s.radius with
  | none => exact absurd htu (quad_none hq u)
  | some none =>
    have hax := quad_nan hq
    obtain ⟨⟨v, hv, hvb⟩, hfirst⟩ := key (fun v _ w _ _ hx => (axial_tube hax s.radius w v).2 hx)
    rcases hb none with ⟨_, hnone⟩ | ⟨e, he, hupd⟩
    · exact absurd ⟨v, hv, hvb⟩ hnone
    · exact ⟨e, hfirst e he, capsule_inter_eval hq (fun h => h) hupd hR (hfirst e he).2.1⟩
  | some (some (t1, t2)) =>
    obtain ⟨b1, b2⟩ := (tube_iff hq u).1 htu
    have hn : ¬ bothNeg (some (t1, t2)) := fun hx => by unfold bothNeg at hx; linarith [hx.1]
    obtain ⟨t0, e0, ht0, hs, hc⟩ := pick_some hq hn
    have hnax : ¬ Axial r := fun hx => by rw [quad_axial hx] at hq; cases hq
    rcases hcase with hx | hx | ⟨hx, t', ht', hy1, hy2⟩
    · exact absurd hx hnax
    · -- strictly inside the tube
      have hlt : t2 < 0 ∧ 0 < t1 := by
        rw [h0] at hx
        exact (tube_strict hq 0).1 hx
      have e1 : t0 = t1 := by rcases hc with hc | hc; exact hc.2; linarith [hc.1]
      obtain ⟨⟨v, hv, hvb⟩, hfirst⟩ := key (fun v _ w hw hle hx =>
        (tube_iff hq w).2 ⟨by linarith, le_trans hle ((tube_iff hq v).1 hx).2⟩)
      rcases hb (pick (some (t1, t2))) with ⟨_, hnone⟩ | ⟨e, he, hupd⟩
      · exact absurd ⟨v, hv, hvb⟩ hnone
      · have hf := hfirst e he
        have hle : e ≤ t1 := ((tube_iff hq e).1 (capsule_tube hR hf.2.1)).2
        rw [e0] at hupd
        dsimp only [Option.elim] at hupd
        rw [e1, min_eq_left hle] at hupd
        exact ⟨e, hf, capsule_inter_eval hq hn (by rw [e0, e1]; exact hupd) hR hf.2.1⟩
    · -- first point of the tube on the straight side
      have hpos : 0 < t2 := by
        by_contra hcon
        push Not at hcon
        apply hx; rw [h0]
        exact (tube_iff hq 0).2 ⟨hcon, by linarith⟩
      have e1 : t0 = t2 := by rcases hc with hc | hc; linarith [hc.1]; exact hc.2
      have e2 : t' = t2 := by
        apply le_antisymm
        · exact ht'.2.2 t2 hpos.le ((tube_iff hq t2).2 ⟨le_refl _, (quad_some hq).2.1⟩)
        · exact ((tube_iff hq t').1 ht'.2.1).1
      subst e2
      have hcap : InCapsule s.halfHeight s.radius (r.at t') := (capsule_split hh hR _).2 (.inr (.inr ⟨⟨hy1, hy2⟩, ht'.2.1⟩))
      refine ⟨t', ⟨hpos.le, hcap, fun v hv hxv => ht'.2.2 v hv (capsule_tube hR hxv)⟩, capsule_inter_eval hq hn ?_ hR hcap⟩
      rcases hb (pick (some (t1, t'))) with ⟨hupd, _⟩ | ⟨e, he, hupd⟩
      · rw [hupd, e0, e1]
      · rw [hupd, e0, e1]
        dsimp only [Option.elim]
        rw [min_eq_right]
        refine ((tube_iff hq e).1 ?_).1
        rcases he.2.1 with hxe | hxe
        · exact capsule_tube hR ((capsule_split hh hR _).2 (.inl hxe))
        · exact capsule_tube hR ((capsule_split hh hR _).2 (.inr (.inl hxe)))

/-- What one update can return: the value so far, or a point of the end ball on the ray. -/
theorem capUpdate_sound {R c : ℝ} (hR : 0 ≤ R) {r : Ray3 ℝ} (hd : r.direction.dot r.direction = 1) {t : Option ℝ} {u : ℝ} (h : capUpdate R c r t = some u) :
    t = some u ∨ (0 ≤ u ∧ (r.at u - ⟨0, c, 0⟩).norm ≤ R) := by
  unfold capUpdate at h
  dsimp only at h
  have key : ∀ u, (⟨-r.origin.x, c - r.origin.y, -r.origin.z⟩ : V3 ℝ).dot ⟨-r.origin.x, c - r.origin.y, -r.origin.z⟩ -
      (⟨-r.origin.x, c - r.origin.y, -r.origin.z⟩ : V3 ℝ).dot r.direction * (⟨-r.origin.x, c - r.origin.y, -r.origin.z⟩ : V3 ℝ).dot r.direction ≤ R * R →
      u = (⟨-r.origin.x, c - r.origin.y, -r.origin.z⟩ : V3 ℝ).dot r.direction - Real.sqrt (R * R -
      ((⟨-r.origin.x, c - r.origin.y, -r.origin.z⟩ : V3 ℝ).dot ⟨-r.origin.x, c - r.origin.y, -r.origin.z⟩ -
      (⟨-r.origin.x, c - r.origin.y, -r.origin.z⟩ : V3 ℝ).dot r.direction * (⟨-r.origin.x, c - r.origin.y, -r.origin.z⟩ : V3 ℝ).dot r.direction)) →
      (r.at u - ⟨0, c, 0⟩).norm ≤ R := by
    intro u hle hu
    have hs := Real.mul_self_sqrt (sub_nonneg.2 hle)
    rw [ball_iff hR, ball_poly r hd]
    set l : V3 ℝ := ⟨-r.origin.x, c - r.origin.y, -r.origin.z⟩
    rw [hu]
    nlinarith
  split at h
  · split at h
    · rename_i hle
      split at h
      · split at h
        · rename_i h0
          cases h
          exact .inr ⟨h0, key _ hle rfl⟩
        · cases h
      · split at h
        · rename_i h0
          cases h
          exact .inr ⟨h0.1, key _ hle rfl⟩
        · exact .inl h
    · exact .inl h
  · exact .inl h

/-- **C72, soundness, partial.** A point the continuous test reports is on the ray, not behind its start, and is either a point of the capsule or on the side of the tube between the
planes that bound the capsule. (That the first case can fail is `c72_false`.) -/
theorem c72_sound_partial (s : Capsule) (hh : 0 ≤ s.halfHeight) (hR : 0 ≤ s.radius) (r : Ray3 ℝ) (hd : r.direction.norm = 1) {p : V3 ℝ} (h : s.intersectionRay r = some p) :
    ∃ t, 0 ≤ t ∧ p = r.at t ∧ (InCapsule s.halfHeight s.radius p ∨
      (p.x * p.x + p.z * p.z = s.radius * s.radius ∧ -(s.halfHeight + s.radius) ≤ p.y ∧ p.y ≤ s.halfHeight + s.radius)) := by
  have hd1 : r.direction.dot r.direction = 1 := by rw [← V3.norm_sq, hd]; norm_num
  unfold Capsule.intersectionRay at h
  split at h
  · cases h
  · rename_i q hq
    split at h
    · cases h
    · rename_i hn
      split at h
      · cases h
      · rename_i t ht
        dsimp only at h
        split at h
        · cases h
        · rename_i hy
          push Not at hy
          cases h
          rcases capUpdate_sound hR hd1 ht with h1 | ⟨h0, h1⟩
          · rcases capUpdate_sound hR hd1 h1 with h2 | ⟨h0, h2⟩
            · cases q with
              | none => cases h2
              | some q =>
                obtain ⟨t0, e, h0, hx, -⟩ := pick_some hq hn
                rw [h2] at e
                cases e
                exact ⟨t, h0, rfl, .inr ⟨hx, hy.2, hy.1⟩⟩
            · exact ⟨t, h0, rfl, .inl ⟨s.halfHeight, by linarith, le_rfl, h2⟩⟩
          · exact ⟨t, h0, rfl, .inl ⟨-s.halfHeight, le_rfl, by linarith, h1⟩⟩

/-- **C72 is false**, in two ways.  The first ray gets an answer that is not in the capsule, although the test's own discrete
form says that the capsule is missed or hit elsewhere; the second meets the capsule and gets no answer, although the discrete test sees it. -/
theorem c72_false : ∃ (s : Capsule) (r r' : Ray3 ℝ), 0 < s.halfHeight ∧ 0 < s.radius ∧ r.direction.norm = 1 ∧ r'.direction.norm = 1 ∧
    ¬ InCapsule s.halfHeight s.radius r.origin ∧ ¬ InCapsule s.halfHeight s.radius r'.origin ∧
    (∃ p, s.intersectionRay r = some p ∧ ¬ InCapsule s.halfHeight s.radius p) ∧
    (∃ t, 0 ≤ t ∧ InCapsule s.halfHeight s.radius (r'.at t)) ∧ s.intersectionRay r' = none ∧ s.intersectsRay r' = true := by
  have hx : ∃ t, 0 ≤ t ∧ InCapsule 1 1 ((⟨⟨-5, 51 / 10, 0⟩, ⟨4 / 5, -3 / 5, 0⟩⟩ : Ray3 ℝ).at t) := by
    refine ⟨6, by norm_num, 1, by norm_num, by norm_num, ?_⟩
    rw [ball_iff (by norm_num)]; norm_num [Ray3.at]
  have hn2 : (⟨4 / 5, -3 / 5, 0⟩ : V3 ℝ).norm = 1 := by norm_num [V3.norm, V3.dot]
  have ho2 : ¬ InCapsule 1 1 (⟨-5, 51 / 10, 0⟩ : V3 ℝ) := by
    rintro ⟨s, h1, h2, hs⟩; rw [ball_iff (by norm_num)] at hs; norm_num at hs; nlinarith [mul_self_nonneg (51 / 10 - s)]
  refine ⟨⟨1, 1⟩, ⟨⟨-10, 3 / 2, 0⟩, ⟨1, 0, 0⟩⟩, ⟨⟨-5, 51 / 10, 0⟩, ⟨4 / 5, -3 / 5, 0⟩⟩, by norm_num, by norm_num, by norm_num [V3.norm, V3.dot],
    hn2, ?_, ho2, ⟨⟨-1, 3 / 2, 0⟩, ?_, ?_⟩, hx, ?_, ?_⟩
  · rintro ⟨s, h1, h2, hs⟩; rw [ball_iff (by norm_num)] at hs; norm_num at hs; nlinarith [mul_self_nonneg (3 / 2 - s)]
  · have hq : quadSolve ⟨⟨-10, 3 / 2, 0⟩, ⟨1, 0, 0⟩⟩ 1 = some (some ((11 : ℝ), 9)) := by
      apply quad_eval <;> norm_num [Ray3.qa, Ray3.qb, Ray3.qc]
    unfold Capsule.intersectionRay
    dsimp only
    rw [hq]
    dsimp only
    have e : capUpdate (1 : ℝ) (-1) ⟨⟨-10, 3 / 2, 0⟩, ⟨1, 0, 0⟩⟩ (capUpdate 1 1 ⟨⟨-10, 3 / 2, 0⟩, ⟨1, 0, 0⟩⟩ (pick (some (11, 9)))) = some 9 := by
      have h1 : Real.sqrt (3 / 4 : ℝ) ≤ 1 := Real.sqrt_le_one.mpr (by norm_num)
      have e1 : capUpdate (1 : ℝ) 1 ⟨⟨-10, 3 / 2, 0⟩, ⟨1, 0, 0⟩⟩ (pick (some (11, 9))) = some 9 := by
        norm_num [capUpdate, pick, V3.dot]
        have h2 : Real.sqrt 3 / Real.sqrt 4 ≤ 1 := by rw [← Real.sqrt_div (by norm_num)]; exact h1
        intro _ h3; exfalso; linarith
      rw [e1]
      norm_num [capUpdate, V3.dot]
    rw [e, if_neg (by norm_num [bothNeg])]
    norm_num [V3.ext_iff]
  · rintro ⟨s, h1, h2, hs⟩; rw [ball_iff (by norm_num)] at hs; norm_num at hs; nlinarith [mul_self_nonneg (3 / 2 - s)]
  · have hq : quadSolve ⟨⟨-5, 51 / 10, 0⟩, ⟨4 / 5, -3 / 5, 0⟩⟩ 1 = some (some ((15 / 2 : ℝ), 5)) := by
      apply quad_eval <;> norm_num [Ray3.qa, Ray3.qb, Ray3.qc]
    have hd1 : (⟨4 / 5, -3 / 5, 0⟩ : V3 ℝ).dot ⟨4 / 5, -3 / 5, 0⟩ = 1 := by norm_num [V3.dot]
    rw [capsule_split (by norm_num) (by norm_num)] at ho2
    push Not at ho2
    have hu := capUpdate_two (h := 1) (R := 1) (r := ⟨⟨-5, 51 / 10, 0⟩, ⟨4 / 5, -3 / 5, 0⟩⟩) (by norm_num) hd1 (not_le.2 ho2.1) (not_le.2 ho2.2.1)
      (pick (some ((15 / 2 : ℝ), 5)))
    have ep : pick (some ((15 / 2 : ℝ), 5)) = some 5 := by norm_num [pick]
    have e : capUpdate (1 : ℝ) (-1) ⟨⟨-5, 51 / 10, 0⟩, ⟨4 / 5, -3 / 5, 0⟩⟩
        (capUpdate 1 1 ⟨⟨-5, 51 / 10, 0⟩, ⟨4 / 5, -3 / 5, 0⟩⟩ (pick (some (15 / 2, 5)))) = some 5 := by
      rcases hu with ⟨hu, _⟩ | ⟨e, he, hu⟩
      · rw [hu, ep]
      · rw [hu, ep]
        dsimp only [Option.elim]
        rw [min_eq_right]
        refine ((tube_iff hq e).1 ?_).1
        rcases he.2.1 with hxe | hxe
        · exact capsule_tube (h := 1) (by norm_num) ((capsule_split (by norm_num) (by norm_num) _).2 (.inl hxe))
        · exact capsule_tube (h := 1) (by norm_num) ((capsule_split (by norm_num) (by norm_num) _).2 (.inr (.inl hxe)))
    unfold Capsule.intersectionRay
    dsimp only
    rw [hq]
    dsimp only
    rw [e, if_neg (by norm_num [bothNeg])]
    norm_num
  · exact c71_complete ⟨1, 1⟩ (by norm_num) (by norm_num) _ hn2 ho2 hx

/-! ## C73: the cylinder's discrete ray test -/

theorem tTop_eq (h : ℝ) (r : Ray3 ℝ) : tTop h r = if r.direction.y = 0 then none else some ((h - r.origin.y) / r.direction.y) := by
  unfold tTop
  split
  · rfl
  · rename_i hd
    congr 1
    simp only [V3.dot]
    rw [div_eq_div_iff (by simpa using hd) hd]; ring

/-- Both end tests of the cylinder look at the same plane, the top one. -/
theorem tBottom_eq_tTop (h : ℝ) (r : Ray3 ℝ) : tBottom h r = tTop h r := by
  rw [tTop_eq]
  unfold tBottom
  split
  · rfl
  · rename_i hd
    congr 1
    simp only [V3.dot]
    rw [div_eq_div_iff (by simpa using hd) hd]; ring

theorem tTop_some {h : ℝ} {r : Ray3 ℝ} {t : ℝ} (e : tTop h r = some t) : (r.at t).y = h ∧ ∀ u, (r.at u).y = h → u = t := by
  rw [tTop_eq] at e
  split at e
  · cases e
  · rename_i hd
    injection e with e
    subst e
    refine ⟨by rw [at_y]; field_simp; ring, fun u hu => ?_⟩
    rw [at_y] at hu
    rw [eq_div_iff hd]; linarith

theorem tTop_of_y {h : ℝ} {r : Ray3 ℝ} {t : ℝ} (hd : r.direction.y ≠ 0) (e : (r.at t).y = h) : tTop h r = some t := by
  rw [tTop_eq, if_neg hd]
  rw [at_y] at e
  congr 1
  rw [div_eq_iff hd]; linarith

theorem cylinder_true_iff (s : Cylinder) (r : Ray3 ℝ) (hax : ¬ Axial r) : s.intersectsRay r = true ↔
    ∃ t1 t2, quadSolve r s.radius = some (some (t1, t2)) ∧ ¬ bothNeg (some (t1, t2)) ∧
      (sideHit s.halfHeight r (pick (some (t1, t2))) ∨ discHit s.radius r (tTop s.halfHeight r)) := by
  have hax' : ¬ (r.direction.x = 0 ∧ r.direction.z = 0) := hax
  unfold Cylinder.intersectsRay
  rw [if_neg hax', tBottom_eq_tTop]
  match hq : quadSolve r s.radius with
  | none => simp
  | some none => exact absurd (quad_nan hq) hax
  | some (some (t1, t2)) =>
    dsimp only
    constructor
    · intro hx
      refine ⟨t1, t2, rfl, ?_⟩
      by_cases h1 : bothNeg (some (t1, t2))
      · rw [if_pos h1] at hx; cases hx
      · refine ⟨h1, ?_⟩
        rw [if_neg h1] at hx
        by_cases h2 : sideHit s.halfHeight r (pick (some (t1, t2)))
        · exact .inl h2
        · rw [if_neg h2] at hx
          by_cases h3 : discHit s.radius r (tTop s.halfHeight r)
          · exact .inr h3
          · rw [if_neg h3, if_neg h3] at hx; cases hx
    · rintro ⟨a, b, e, h1, h2⟩
      simp only [Option.some.injEq, Prod.mk.injEq] at e
      obtain ⟨rfl, rfl⟩ := e
      rw [if_neg h1]
      rcases h2 with h2 | h2
      · rw [if_pos h2]
      · by_cases h3 : sideHit s.halfHeight r (pick (some (t1, t2)))
        · rw [if_pos h3]
        · rw [if_neg h3, if_pos h2]

/-- **C73, soundness, partial:** for rays that are not parallel to the axis, if the test answers yes, the ray meets the cylinder. -/
theorem c73_sound_partial (s : Cylinder) (hh : 0 ≤ s.halfHeight) (r : Ray3 ℝ) (hax : ¬ Axial r) (h : s.intersectsRay r = true) :
    ∃ t, 0 ≤ t ∧ InCylinder s.halfHeight s.radius (r.at t) := by
  obtain ⟨t1, t2, hq, hn, hx | hx⟩ := (cylinder_true_iff s r hax).1 h
  · obtain ⟨t0, e, h0, hs, _⟩ := pick_some hq hn
    rw [e] at hx
    exact ⟨t0, h0, ⟨hx.2, hx.1⟩, hs.le⟩
  · match e : tTop s.halfHeight r, hx with
    | some t, hx =>
      have hy := (tTop_some e).1
      exact ⟨t, hx.1, ⟨by rw [hy]; linarith, by rw [hy]⟩, le_of_lt hx.2⟩

/-- **C73, completeness, partial:** a ray that is not parallel to the axis and starts outside the cylinder, above the plane of the bottom disc,
is reported if it passes through a point of the cylinder that is closer to the axis than the radius. -/
theorem c73_complete_partial (s : Cylinder) (r : Ray3 ℝ) (hax : ¬ Axial r)
    (hout : ¬ InCylinder s.halfHeight s.radius r.origin) (hy : -s.halfHeight < r.origin.y)
    (h : ∃ t, 0 ≤ t ∧ InCylinder s.halfHeight s.radius (r.at t) ∧ (r.at t).x * (r.at t).x + (r.at t).z * (r.at t).z < s.radius * s.radius) :
    s.intersectsRay r = true := by
  obtain ⟨u, hu, ⟨⟨y1, y2⟩, htu⟩, hst⟩ := h
  have h0 : r.origin = r.at 0 := by simp [Ray3.at, V3.ext_iff]
  rw [cylinder_true_iff s r hax]
  match hq : quadSolve r s.radius with
  | none => exact absurd htu (quad_none hq u)
  | some none => exact absurd (quad_nan hq) hax
  | some (some (t1, t2)) =>
    obtain ⟨b1, b2⟩ := (tube_strict hq u).1 hst
    have hn : ¬ bothNeg (some (t1, t2)) := fun hx => by unfold bothNeg at hx; linarith [hx.1]
    refine ⟨t1, t2, rfl, hn, ?_⟩
    obtain ⟨t0, e, ht0, hs, hc⟩ := pick_some hq hn
    rw [e]
    by_cases hsd : sideHit s.halfHeight r (some t0)
    · exact .inl hsd
    · right
      have disc : ∀ v, 0 ≤ v → t2 < v → v < t1 → (r.at v).y = s.halfHeight → r.direction.y ≠ 0 → discHit s.radius r (tTop s.halfHeight r) := by
        intro v hv v1 v2 v3 hd
        rw [tTop_of_y hd v3]
        exact ⟨hv, (tube_strict hq v).2 ⟨v1, v2⟩⟩
      have hsd' : ¬ ((r.at t0).y ≤ s.halfHeight ∧ -s.halfHeight ≤ (r.at t0).y) := hsd
      by_cases hty : s.halfHeight < (r.at t0).y
      · obtain ⟨v, a1, a2, a3⟩ := y_cross r (a := u) (b := t0) y2 hty.le
        have hd : r.direction.y ≠ 0 := by intro hd; rw [at_y, hd] at hty y2; linarith
        have hne : v ≠ t0 := by rintro rfl; linarith
        refine disc v (le_trans (le_min hu ht0) a1) ?_ ?_ a3 hd
        · rcases hc with ⟨c1, c2⟩ | ⟨c1, c2⟩
          · linarith [le_trans (le_min hu ht0) a1]
          · rcases le_total u t0 with hl | hl
            · linarith [le_trans (le_min (le_refl u) hl) a1]
            · rw [min_eq_right hl] at a1
              rw [← c2]; exact lt_of_le_of_ne a1 (Ne.symm hne)
        · rcases hc with ⟨c1, c2⟩ | ⟨c1, c2⟩
          · rw [max_eq_right (by rw [c2]; exact b2.le)] at a2
            rw [← c2]; exact lt_of_le_of_ne a2 hne
          · rw [max_eq_left (by rw [c2]; exact b1.le)] at a2
            linarith
      · have hty' : (r.at t0).y < -s.halfHeight := by
          by_contra hcon; push Not at hcon hty; exact hsd' ⟨hty, hcon⟩
        have hpos : 0 < t0 := by
          rcases lt_or_eq_of_le ht0 with hx | hx
          · exact hx
          · rw [← hx, ← h0] at hty'; linarith
        have hdy : r.direction.y < 0 := by
          rw [at_y] at hty'; by_contra hcon; push Not at hcon; nlinarith
        rcases hc with ⟨c1, c2⟩ | ⟨c1, c2⟩
        · -- leaving the tube below the cylinder, so the ray started above it
          have hin0 : InTube s.radius r.origin := by rw [h0]; exact (tube_iff hq 0).2 ⟨c1.le, by linarith⟩
          have hyo : s.halfHeight < r.origin.y := by
            by_contra hcon; push Not at hcon; exact hout ⟨⟨hy.le, hcon⟩, hin0⟩
          obtain ⟨v, a1, a2, a3⟩ := y_cross r (a := u) (b := 0) (v := s.halfHeight) y2 (by rw [← h0]; exact hyo.le)
          rw [min_eq_right hu] at a1; rw [max_eq_left hu] at a2
          exact disc v a1 (by linarith) (by linarith) a3 hdy.ne
        · exfalso
          have : (r.at u).y < (r.at t0).y := by rw [at_y, at_y, c2]; nlinarith
          linarith

/-- **C73: the bottom disc is never tested.** A ray that reaches the tube below the cylinder and does not get to the height of the top
inside of the tube is never reported, even where it passes right through the bottom disc. -/
theorem c73_bottom_missed (s : Cylinder) (r : Ray3 ℝ) (hax : ¬ Axial r) (t0 : ℝ) (hpos : 0 < t0) (hf : r.First (InTube s.radius) t0)
    (hb : (r.at t0).y < -s.halfHeight) (ht : ∀ t, 0 ≤ t → InTube s.radius (r.at t) → (r.at t).y < s.halfHeight) :
    s.intersectsRay r = false := by
  rw [Bool.eq_false_iff]
  intro hx
  have h0 : r.origin = r.at 0 := by simp [Ray3.at, V3.ext_iff]
  obtain ⟨t1, t2, hq, hn, hx | hx⟩ := (cylinder_true_iff s r hax).1 hx
  · obtain ⟨t, e, h0', hs, hc⟩ := pick_some hq hn
    rw [e] at hx
    have hle := (tube_iff hq t0).1 hf.2.1
    rcases hc with ⟨c1, c2⟩ | ⟨c1, c2⟩
    · have := hf.2.2 0 (le_refl 0) ((tube_iff hq 0).2 ⟨c1.le, by linarith⟩)
      linarith
    · have h1 := hf.2.2 t h0' hs.le
      have h2 : t = t0 := by linarith [hle.1]
      rw [h2] at hx
      have : -s.halfHeight ≤ (r.at t0).y := hx.2
      linarith
  · match e : tTop s.halfHeight r, hx with
    | some t, hx =>
      have hy := (tTop_some e).1
      have := ht t hx.1 (le_of_lt hx.2)
      linarith

/-- **C73 is false**, in two ways: a ray parallel to the axis and far from the cylinder is reported; a ray through the bottom disc is not. -/
theorem c73_false : ∃ (s : Cylinder) (r r' : Ray3 ℝ), 0 < s.halfHeight ∧ 0 < s.radius ∧ r.direction.norm = 1 ∧ r'.direction.norm = 1 ∧
    s.intersectsRay r = true ∧ (¬ ∃ t, 0 ≤ t ∧ InCylinder s.halfHeight s.radius (r.at t)) ∧
    s.intersectsRay r' = false ∧ (∃ t, 0 ≤ t ∧ InCylinder s.halfHeight s.radius (r'.at t)) := by
  refine ⟨⟨1, 1⟩, ⟨⟨5, 3, 0⟩, ⟨0, -1, 0⟩⟩, ⟨⟨-5, -19 / 4, 0⟩, ⟨4 / 5, 3 / 5, 0⟩⟩, by norm_num, by norm_num, by norm_num [V3.norm, V3.dot],
    by norm_num [V3.norm, V3.dot], ?_, ?_, ?_, ?_⟩
  · norm_num [Cylinder.intersectsRay]
  · rintro ⟨t, _, _, hx⟩
    norm_num [Ray3.at] at hx
  · have hax : ¬ Axial ⟨⟨-5, -19 / 4, 0⟩, ⟨4 / 5, 3 / 5, 0⟩⟩ := by norm_num [Axial]
    refine c73_bottom_missed ⟨1, 1⟩ _ hax 5 (by norm_num) ⟨by norm_num, ?_, ?_⟩ ?_ ?_
    · norm_num [InTube, Ray3.at]
    · intro u hu hx
      norm_num [InTube, Ray3.at] at hx
      nlinarith
    · norm_num [Ray3.at]
    · intro t ht hx
      norm_num [InTube, Ray3.at] at hx ⊢
      nlinarith
  · refine ⟨7, by norm_num, ?_⟩
    norm_num [InCylinder, Ray3.at]

/-! ## C74: the cylinder's continuous ray test -/

theorem cylinder_inter_eq (s : Cylinder) (r : Ray3 ℝ) {t1 t2 t0 : ℝ} (hq : quadSolve r s.radius = some (some (t1, t2))) (hn : ¬ bothNeg (some (t1, t2)))
    (e : pick (some (t1, t2)) = some t0) : ∃ t, (t = t0 ∨ (0 ≤ t ∧ t < t0 ∧ InDiscAt s.radius r t ∧ tTop s.halfHeight r = some t)) ∧
    (t = t0 → ∀ u, tTop s.halfHeight r = some u → ¬ (0 ≤ u ∧ u < t0 ∧ InDiscAt s.radius r u)) ∧
    s.intersectionRay r = if s.halfHeight < (r.at t).y ∨ (r.at t).y < -s.halfHeight then none else some (r.at t) := by
  have hax : ¬ (r.direction.x = 0 ∧ r.direction.z = 0) := fun hx => by rw [quad_axial hx] at hq; cases hq
  have heq : s.intersectionRay r = let t := discUpdate s.radius r (tTop s.halfHeight r) (discUpdate s.radius r (tTop s.halfHeight r) t0)
      if s.halfHeight < (r.at t).y ∨ (r.at t).y < -s.halfHeight then none else some (r.at t) := by
    unfold Cylinder.intersectionRay
    rw [if_neg hax, hq, tBottom_eq_tTop]
    dsimp only
    rw [if_neg hn, e]
    dsimp only
    congr
  have hu : ∀ t, (discUpdate s.radius r (tTop s.halfHeight r) t = t ∧ ∀ u, tTop s.halfHeight r = some u → ¬ (0 ≤ u ∧ u < t ∧ InDiscAt s.radius r u)) ∨
      ∃ u, tTop s.halfHeight r = some u ∧ 0 ≤ u ∧ u < t ∧ InDiscAt s.radius r u ∧ discUpdate s.radius r (tTop s.halfHeight r) t = u := by
    intro t
    cases htp : tTop s.halfHeight r with
    | none => exact .inl ⟨rfl, fun u hx => by cases hx⟩
    | some u =>
      unfold discUpdate
      dsimp only
      by_cases h1 : 0 ≤ u ∧ u < t
      · by_cases h2 : InDiscAt s.radius r u
        · right; exact ⟨u, rfl, h1.1, h1.2, h2, by rw [if_pos h1, if_pos h2]⟩
        · left
          refine ⟨by rw [if_pos h1, if_neg h2], fun v hv hx => ?_⟩
          injection hv with hv; subst hv; exact h2 hx.2.2
      · left
        refine ⟨by rw [if_neg h1], fun v hv hx => ?_⟩
        injection hv with hv; subst hv; exact h1 ⟨hx.1, hx.2.1⟩
  rcases hu t0 with ⟨e1, n1⟩ | ⟨u, e1, c1, c2, c3, e2⟩
  · refine ⟨t0, .inl rfl, fun _ => n1, ?_⟩
    rw [heq, e1]; dsimp only; rw [e1]
  · refine ⟨u, .inr ⟨c1, c2, c3, e1⟩, fun hx => by linarith, ?_⟩
    rw [heq, e2]; dsimp only
    have e3 : discUpdate s.radius r (tTop s.halfHeight r) u = u := by
      rcases hu u with ⟨e3, _⟩ | ⟨v, e3, _, d2, _⟩
      · exact e3
      · rw [e1] at e3; injection e3 with e3; linarith
    rw [e3]

/-- **C74, soundness, partial:** for rays that are not parallel to the axis, a point that is returned lies on the ray and in the cylinder. -/
theorem c74_sound_partial (s : Cylinder) (r : Ray3 ℝ) (hax : ¬ Axial r) {p : V3 ℝ} (h : s.intersectionRay r = some p) :
    ∃ t, 0 ≤ t ∧ p = r.at t ∧ InCylinder s.halfHeight s.radius p := by
  match hq : quadSolve r s.radius with
  | none =>
    have hax' : ¬ (r.direction.x = 0 ∧ r.direction.z = 0) := hax
    unfold Cylinder.intersectionRay at h
    rw [if_neg hax', hq] at h; cases h
  | some none => exact absurd (quad_nan hq) hax
  | some (some (t1, t2)) =>
    by_cases hn : bothNeg (some (t1, t2))
    · have hax' : ¬ (r.direction.x = 0 ∧ r.direction.z = 0) := hax
      unfold Cylinder.intersectionRay at h
      rw [if_neg hax', hq] at h
      dsimp only at h
      rw [if_pos hn] at h; cases h
    · obtain ⟨t0, e, h0, hs, hc⟩ := pick_some hq hn
      obtain ⟨t, h1, _, h2⟩ := cylinder_inter_eq s r hq hn e
      rw [h2] at h
      split at h
      · cases h
      · rename_i hy
        injection h with h
        push Not at hy
        refine ⟨t, ?_, h.symm, ?_⟩
        · rcases h1 with rfl | h1
          · exact h0
          · exact h1.1
        · rw [← h]
          refine ⟨⟨hy.2, hy.1⟩, ?_⟩
          rcases h1 with rfl | h1
          · exact hs.le
          · exact le_of_lt h1.2.2.1

/-- **C74, partial:** a ray that starts outside of the tube and enters it on the side of the cylinder gets its first point of the cylinder. -/
theorem c74_side_partial (s : Cylinder) (r : Ray3 ℝ) (hout : ¬ InTube s.radius r.origin) (t : ℝ) (hf : r.First (InTube s.radius) t)
    (hy : -s.halfHeight ≤ (r.at t).y ∧ (r.at t).y ≤ s.halfHeight) :
    r.First (InCylinder s.halfHeight s.radius) t ∧ s.intersectionRay r = some (r.at t) := by
  have h0 : r.origin = r.at 0 := by simp [Ray3.at, V3.ext_iff]
  refine ⟨⟨hf.1, ⟨hy, hf.2.1⟩, fun u hu hx => hf.2.2 u hu hx.2⟩, ?_⟩
  match hq : quadSolve r s.radius with
  | none => exact absurd hf.2.1 (quad_none hq t)
  | some none => exact absurd ((axial_tube (quad_nan hq) s.radius t 0).1 hf.2.1) (by rw [← h0]; exact hout)
  | some (some (t1, t2)) =>
    obtain ⟨b1, b2⟩ := (tube_iff hq t).1 hf.2.1
    have hn : ¬ bothNeg (some (t1, t2)) := fun hx => by unfold bothNeg at hx; linarith [hx.1, hf.1]
    obtain ⟨t0, e, ht0, hs, hc⟩ := pick_some hq hn
    have hpos : 0 < t2 := by
      by_contra hcon
      push Not at hcon
      apply hout; rw [h0]
      exact (tube_iff hq 0).2 ⟨hcon, by linarith [hf.1]⟩
    have e1 : t0 = t2 := by rcases hc with hc | hc; linarith [hc.1]; exact hc.2
    have e2 : t = t2 := le_antisymm (hf.2.2 t2 hpos.le ((tube_iff hq t2).2 ⟨le_refl _, by linarith⟩)) b1
    obtain ⟨t', h1, _, h2⟩ := cylinder_inter_eq s r hq hn e
    have e3 : t' = t := by
      rcases h1 with h1 | ⟨_, d2, d3, _⟩
      · rw [h1, e1, e2]
      · have := ((tube_strict hq t').1 d3).1; linarith
    rw [h2, e3, if_neg (by push Not; exact ⟨hy.2, hy.1⟩)]

/-- **C74, partial:** a ray that starts inside the tube, above the cylinder, gets its first point of the cylinder if there is one. -/
theorem c74_top_partial (s : Cylinder) (hh : 0 ≤ s.halfHeight) (r : Ray3 ℝ) (hax : ¬ Axial r)
    (hin : r.origin.x * r.origin.x + r.origin.z * r.origin.z < s.radius * s.radius) (hy : s.halfHeight < r.origin.y)
    (h : ∃ t, 0 ≤ t ∧ InCylinder s.halfHeight s.radius (r.at t)) :
    ∃ t, r.First (InCylinder s.halfHeight s.radius) t ∧ s.intersectionRay r = some (r.at t) := by
  have h0 : r.origin = r.at 0 := by simp [Ray3.at, V3.ext_iff]
  obtain ⟨u, hu, ⟨y1, y2⟩, htu⟩ := h
  match hq : quadSolve r s.radius with
  | none => exact absurd htu (quad_none hq u)
  | some none => exact absurd (quad_nan hq) hax
  | some (some (t1, t2)) =>
    obtain ⟨b1, b2⟩ := (tube_iff hq u).1 htu
    have hlt : t2 < 0 ∧ 0 < t1 := by rw [h0] at hin; exact (tube_strict hq 0).1 hin
    have hn : ¬ bothNeg (some (t1, t2)) := fun hx => by unfold bothNeg at hx; linarith [hx.1]
    obtain ⟨t0, e, ht0, hs, hc⟩ := pick_some hq hn
    have e1 : t0 = t1 := by rcases hc with hc | hc; exact hc.2; linarith [hc.1]
    obtain ⟨v, a1, a2, a3⟩ := y_cross r (a := u) (b := 0) (v := s.halfHeight) y2 (by rw [← h0]; exact hy.le)
    rw [min_eq_right hu] at a1; rw [max_eq_left hu] at a2
    have hdy : r.direction.y < 0 := by
      rw [at_y] at y2; by_contra hcon; push Not at hcon; nlinarith [mul_nonneg hcon hu]
    have hf : r.First (InCylinder s.halfHeight s.radius) v := by
      refine ⟨a1, ⟨⟨by rw [a3]; linarith, by rw [a3]⟩, (tube_iff hq v).2 ⟨by linarith, by linarith⟩⟩, fun w hw hx => ?_⟩
      have := hx.1.2
      rw [at_y] at this a3
      by_contra hcon; push Not at hcon
      nlinarith
    refine ⟨v, hf, ?_⟩
    obtain ⟨t', c1, c2, c3⟩ := cylinder_inter_eq s r hq hn e
    have htop := tTop_of_y (h := s.halfHeight) hdy.ne a3
    have e3 : t' = v := by
      rcases c1 with c1 | ⟨_, _, _, d⟩
      · have := c2 c1 v htop
        by_contra hne
        have hlt' : v < t1 := lt_of_le_of_ne (by linarith) (by intro hx; apply hne; rw [c1, e1, hx])
        exact this ⟨a1, by rw [e1]; exact hlt', (tube_strict hq v).2 ⟨by linarith, hlt'⟩⟩
      · rw [htop] at d; injection d with d; exact d.symm
    rw [c3, e3, if_neg (by push Not; exact ⟨hf.2.1.1.2, hf.2.1.1.1⟩)]

/-- **C74, partial:** a ray along the axis itself, from outside the cylinder, gets its first point of the cylinder, or none if it points away. -/
theorem c74_axis_partial (s : Cylinder) (hh : 0 ≤ s.halfHeight) (r : Ray3 ℝ) (hax : Axial r) (hd : r.direction.y ≠ 0)
    (ho : r.origin.x = 0 ∧ r.origin.z = 0) (hout : s.halfHeight < r.origin.y ∨ r.origin.y < -s.halfHeight) :
    Exact3 s.intersectionRay (InCylinder s.halfHeight s.radius) r := by
  have hat : ∀ t, r.at t = ⟨0, r.origin.y + r.direction.y * t, 0⟩ := fun t => by
    simp [Ray3.at, V3.ext_iff, hax.1, hax.2, ho.1, ho.2]
  have hcyl : ∀ t, InCylinder s.halfHeight s.radius (r.at t) ↔ -s.halfHeight ≤ r.origin.y + r.direction.y * t ∧ r.origin.y + r.direction.y * t ≤ s.halfHeight := by
    intro t
    rw [hat, InCylinder]
    constructor
    · exact fun h => h.1
    · intro h; exact ⟨h, by simpa using mul_self_nonneg s.radius⟩
  unfold Exact3
  have hax' : r.direction.x = 0 ∧ r.direction.z = 0 := hax
  unfold Cylinder.intersectionRay
  rw [if_pos hax', if_neg hd]
  rcases hout with hy | hy
  · rcases lt_or_gt_of_ne hd with hd' | hd'
    · rw [if_pos ⟨hy.le, hd'⟩]
      refine ⟨⟨fun h => (by cases h), fun h => ?_⟩, fun p hp => ?_⟩
      · exfalso; apply h
        refine ⟨(s.halfHeight - r.origin.y) / r.direction.y, div_nonneg_of_nonpos (by linarith) hd'.le, (hcyl _).2 ?_⟩
        rw [mul_div_cancel₀ _ hd]; constructor <;> linarith
      · injection hp with hp
        refine ⟨(s.halfHeight - r.origin.y) / r.direction.y, ⟨div_nonneg_of_nonpos (by linarith) hd'.le, (hcyl _).2 ?_, fun u hu hx => ?_⟩, ?_⟩
        · rw [mul_div_cancel₀ _ hd]; constructor <;> linarith
        · have := ((hcyl u).1 hx).2
          rw [div_le_iff_of_neg hd']; linarith
        · rw [hat, mul_div_cancel₀ _ hd, ← hp]; simp
    · rw [if_neg (by rintro ⟨_, h⟩; linarith), if_neg (by rintro ⟨_, h⟩; linarith), if_neg (by rintro ⟨h, _⟩; linarith), if_neg (by rintro ⟨h, _⟩; linarith)]
      refine ⟨⟨fun _ => ?_, fun _ => rfl⟩, fun p hp => by cases hp⟩
      rintro ⟨t, ht, hx⟩
      have := ((hcyl t).1 hx).2
      nlinarith [mul_nonneg hd'.le ht]
  · rcases lt_or_gt_of_ne hd with hd' | hd'
    · rw [if_neg (by rintro ⟨h, _⟩; linarith), if_neg (by rintro ⟨h, _⟩; linarith), if_neg (by rintro ⟨_, h⟩; linarith), if_neg (by rintro ⟨_, h⟩; linarith)]
      refine ⟨⟨fun _ => ?_, fun _ => rfl⟩, fun p hp => by cases hp⟩
      rintro ⟨t, ht, hx⟩
      have := ((hcyl t).1 hx).1
      nlinarith [mul_nonneg (neg_nonneg.2 hd'.le) ht]
    · rw [if_neg (by rintro ⟨_, h⟩; linarith), if_neg (by rintro ⟨_, h⟩; linarith), if_pos ⟨hy.le, hd'⟩]
      refine ⟨⟨fun h => (by cases h), fun h => ?_⟩, fun p hp => ?_⟩
      · exfalso; apply h
        refine ⟨(-s.halfHeight - r.origin.y) / r.direction.y, div_nonneg (by linarith) hd'.le, (hcyl _).2 ?_⟩
        rw [mul_div_cancel₀ _ hd]; constructor <;> linarith
      · injection hp with hp
        refine ⟨(-s.halfHeight - r.origin.y) / r.direction.y, ⟨div_nonneg (by linarith) hd'.le, (hcyl _).2 ?_, fun u hu hx => ?_⟩, ?_⟩
        · rw [mul_div_cancel₀ _ hd]; constructor <;> linarith
        · have := ((hcyl u).1 hx).1
          rw [div_le_iff₀ hd']; linarith
        · rw [hat, mul_div_cancel₀ _ hd, ← hp]; simp

/-- **C73, partial:** a ray parallel to the axis whose line is in the tube, from any start (also inside the cylinder): the discrete test is exact. -/
theorem c73_axis_partial (s : Cylinder) (hh : 0 ≤ s.halfHeight) (r : Ray3 ℝ) (hax : Axial r) (hd : r.direction.y ≠ 0) (ho : InTube s.radius r.origin) :
    s.intersectsRay r = true ↔ ∃ t, 0 ≤ t ∧ InCylinder s.halfHeight s.radius (r.at t) := by
  have hcyl : ∀ t, InCylinder s.halfHeight s.radius (r.at t) ↔ -s.halfHeight ≤ r.origin.y + r.direction.y * t ∧ r.origin.y + r.direction.y * t ≤ s.halfHeight := by
    intro t
    have ht : InTube s.radius (r.at t) := by
      have := (axial_tube hax s.radius 0 t).1
      apply this
      have e : r.at 0 = r.origin := by ext <;> simp [Ray3.at]
      rw [e]; exact ho
    exact ⟨fun h => h.1, fun h => ⟨h, ht⟩⟩
  have hax' : r.direction.x = 0 ∧ r.direction.z = 0 := hax
  unfold Cylinder.intersectsRay
  rw [if_pos hax', if_neg hd, decide_eq_true_iff]
  constructor
  · rintro (⟨h1, h2⟩ | ⟨h1, h2⟩)
    · have hd' : r.direction.y < 0 := lt_of_le_of_ne h2 hd
      rcases le_total r.origin.y s.halfHeight with h3 | h3
      · exact ⟨0, le_rfl, (hcyl 0).2 (by constructor <;> linarith)⟩
      · refine ⟨(s.halfHeight - r.origin.y) / r.direction.y, div_nonneg_of_nonpos (by linarith) hd'.le, (hcyl _).2 ?_⟩
        rw [mul_div_cancel₀ _ hd]; constructor <;> linarith
    · have hd' : 0 < r.direction.y := lt_of_le_of_ne h2 (Ne.symm hd)
      rcases le_total (-s.halfHeight) r.origin.y with h3 | h3
      · exact ⟨0, le_rfl, (hcyl 0).2 (by constructor <;> linarith)⟩
      · refine ⟨(-s.halfHeight - r.origin.y) / r.direction.y, div_nonneg (by linarith) hd'.le, (hcyl _).2 ?_⟩
        rw [mul_div_cancel₀ _ hd]; constructor <;> linarith
  · rintro ⟨t, ht, hx⟩
    obtain ⟨h1, h2⟩ := (hcyl t).1 hx
    rcases lt_or_gt_of_ne hd with hd' | hd'
    · left; exact ⟨by nlinarith, hd'.le⟩
    · right; exact ⟨by nlinarith, hd'.le⟩

/-- **C74:** a ray along the axis from a point inside the cylinder gets the point where it leaves the cylinder. -/
theorem c74_axis_inside (s : Cylinder) (r : Ray3 ℝ) (hax : Axial r) (hd : r.direction.y ≠ 0) (ho : r.origin.x = 0 ∧ r.origin.z = 0)
    (hin : -s.halfHeight < r.origin.y ∧ r.origin.y < s.halfHeight) :
    ∃ t p, s.intersectionRay r = some p ∧ p = r.at t ∧ ∀ u, 0 ≤ u → (InCylinder s.halfHeight s.radius (r.at u) ↔ u ≤ t) := by
  have hat : ∀ t, r.at t = ⟨0, r.origin.y + r.direction.y * t, 0⟩ := fun t => by
    simp [Ray3.at, V3.ext_iff, hax.1, hax.2, ho.1, ho.2]
  have hcyl : ∀ t, InCylinder s.halfHeight s.radius (r.at t) ↔ -s.halfHeight ≤ r.origin.y + r.direction.y * t ∧ r.origin.y + r.direction.y * t ≤ s.halfHeight := by
    intro t
    rw [hat, InCylinder]
    constructor
    · exact fun h => h.1
    · intro h; exact ⟨h, by simpa using mul_self_nonneg s.radius⟩
  have hax' : r.direction.x = 0 ∧ r.direction.z = 0 := hax
  unfold Cylinder.intersectionRay
  rw [if_pos hax', if_neg hd]
  rcases lt_or_gt_of_ne hd with hd' | hd'
  · rw [if_neg (by rintro ⟨h, _⟩; linarith), if_pos ⟨hin.1.le, hd'⟩]
    refine ⟨(-s.halfHeight - r.origin.y) / r.direction.y, _, rfl, ?_, fun u hu => ?_⟩
    · rw [hat, mul_div_cancel₀ _ hd]; simp
    · rw [hcyl, le_div_iff_of_neg hd']
      constructor
      · rintro ⟨h1, -⟩; linarith
      · intro h; constructor <;> nlinarith
  · rw [if_neg (by rintro ⟨_, h⟩; linarith), if_neg (by rintro ⟨_, h⟩; linarith), if_neg (by rintro ⟨h, _⟩; linarith), if_pos ⟨hin.2.le, hd'⟩]
    refine ⟨(s.halfHeight - r.origin.y) / r.direction.y, _, rfl, ?_, fun u hu => ?_⟩
    · rw [hat, mul_div_cancel₀ _ hd]; simp
    · rw [hcyl, le_div_iff₀ hd']
      constructor
      · rintro ⟨-, h1⟩; linarith
      · intro h; constructor <;> nlinarith

/-- **C74 is false**, in three ways: a ray that meets the top disc from outside of the tube gets no answer; a ray that enters by the
bottom disc gets the point where it leaves; a ray parallel to the axis gets a point that is not on it. -/
theorem c74_false : ∃ (s : Cylinder) (r1 r2 r3 : Ray3 ℝ), 0 < s.halfHeight ∧ 0 < s.radius ∧
    (r1.direction.norm = 1 ∧ r2.direction.norm = 1 ∧ r3.direction.norm = 1) ∧
    ((∃ t, 0 ≤ t ∧ InCylinder s.halfHeight s.radius (r1.at t)) ∧ s.intersectionRay r1 = none) ∧
    (∃ t, r2.First (InCylinder s.halfHeight s.radius) t ∧ ∃ p, s.intersectionRay r2 = some p ∧ p ≠ r2.at t) ∧
    (∃ p, s.intersectionRay r3 = some p ∧ ∀ t, p ≠ r3.at t) := by
  refine ⟨⟨1, 1⟩, ⟨⟨-5, 19 / 4, 0⟩, ⟨4 / 5, -3 / 5, 0⟩⟩, ⟨⟨0, -3 / 2, 0⟩, ⟨4 / 5, 3 / 5, 0⟩⟩, ⟨⟨5, 3, 0⟩, ⟨0, -1, 0⟩⟩, by norm_num, by norm_num,
    ⟨by norm_num [V3.norm, V3.dot], by norm_num [V3.norm, V3.dot], by norm_num [V3.norm, V3.dot]⟩, ⟨⟨7, by norm_num, by norm_num [InCylinder, Ray3.at]⟩, ?_⟩,
    ⟨5 / 6, ⟨by norm_num, by norm_num [InCylinder, Ray3.at], ?_⟩, ⟨1, -3 / 4, 0⟩, ?_, by norm_num [Ray3.at, V3.ext_iff]⟩, ⟨⟨0, 1, 0⟩, ?_, ?_⟩⟩
  · have hq : quadSolve ⟨⟨-5, 19 / 4, 0⟩, ⟨4 / 5, -3 / 5, 0⟩⟩ 1 = some (some ((15 / 2 : ℝ), 5)) := by
      apply quad_eval <;> norm_num [Ray3.qa, Ray3.qb, Ray3.qc]
    have hn : ¬ bothNeg (some ((15 / 2 : ℝ), 5)) := by norm_num [bothNeg]
    obtain ⟨t, h1, _, h2⟩ := cylinder_inter_eq ⟨1, 1⟩ _ hq hn (t0 := 5) (by norm_num [pick])
    have e : t = 5 := by
      rcases h1 with h1 | ⟨_, _, h3, _⟩
      · exact h1
      · have := ((tube_strict hq t).1 h3).1; linarith
    rw [h2, e, if_pos]
    norm_num [Ray3.at]
  · intro u hu hx
    have := hx.1.1
    norm_num [Ray3.at] at this
    linarith
  · have hq : quadSolve ⟨⟨0, -3 / 2, 0⟩, ⟨4 / 5, 3 / 5, 0⟩⟩ 1 = some (some ((5 / 4 : ℝ), -5 / 4)) := by
      apply quad_eval <;> norm_num [Ray3.qa, Ray3.qb, Ray3.qc]
    have hn : ¬ bothNeg (some ((5 / 4 : ℝ), -5 / 4)) := by norm_num [bothNeg]
    obtain ⟨t, h1, _, h2⟩ := cylinder_inter_eq ⟨1, 1⟩ _ hq hn (t0 := 5 / 4) (by norm_num [pick])
    have e : t = 5 / 4 := by
      rcases h1 with h1 | ⟨_, h2, _, h4⟩
      · exact h1
      · have := (tTop_some h4).1
        norm_num [Ray3.at] at this
        linarith
    rw [h2, e, if_neg]
    · norm_num [Ray3.at, V3.ext_iff]
    · norm_num [Ray3.at]
  · norm_num [Cylinder.intersectionRay]
  · intro t
    norm_num [Ray3.at, V3.ext_iff]

/-- The hypotheses of the partial results are met by ordinary rays. -/
theorem c7x_example : ∃ (s : Capsule) (c : Cylinder) (r : Ray3 ℝ), ¬ InCapsule s.halfHeight s.radius r.origin ∧
    (∃ t, 0 ≤ t ∧ InCapsule s.halfHeight s.radius (r.at t)) ∧ ¬ Axial r ∧ r.direction.norm = 1 ∧ ¬ InTube c.radius r.origin ∧
    ∃ t, r.First (InTube c.radius) t ∧ -c.halfHeight ≤ (r.at t).y ∧ (r.at t).y ≤ c.halfHeight := by
  refine ⟨⟨1, 1⟩, ⟨1, 1⟩, ⟨⟨-3, 1 / 2, 0⟩, ⟨1, 0, 0⟩⟩, ?_, ⟨3, by norm_num, (capsule_split (by norm_num) (by norm_num) _).2 (.inr (.inr ?_))⟩, by norm_num [Axial],
    by norm_num [V3.norm, V3.dot], by norm_num [InTube], 2, ⟨by norm_num, by norm_num [InTube, Ray3.at], ?_⟩, by norm_num [Ray3.at], by norm_num [Ray3.at]⟩
  · intro h
    have := capsule_tube (by norm_num) h
    norm_num [InTube] at this
  · norm_num [InCylinder, Ray3.at]
  · intro u hu hx
    norm_num [InTube, Ray3.at] at hx
    nlinarith

/-! ## Rays that start on the side surface -/

/-- The solver on a ray that starts on the surface of the tube: the start is one of the two parameters, and it is the one that is picked. -/
theorem pick_surface {r : Ray3 ℝ} {R : ℝ} (hax : ¬ Axial r) (ho : r.origin.x * r.origin.x + r.origin.z * r.origin.z = R * R) :
    ∃ t1 t2, quadSolve r R = some (some (t1, t2)) ∧ ¬ bothNeg (some (t1, t2)) ∧ pick (some (t1, t2)) = some 0 := by
  have h0 : r.at 0 = r.origin := by simp [Ray3.at, V3.ext_iff]
  match hq : quadSolve r R with
  | none => exact absurd (le_of_eq ho) (by have := quad_none hq 0; rw [h0] at this; exact this)
  | some none => exact absurd (quad_nan hq) hax
  | some (some (t1, t2)) =>
    obtain ⟨ha, hle, hf⟩ := quad_some hq
    have := hf 0
    rw [h0, ho, sub_self, eq_comm, mul_eq_zero] at this
    have hz := this.resolve_left ha.ne'
    refine ⟨t1, t2, rfl, ?_⟩
    rcases mul_eq_zero.1 hz with e | e
    · have e1 : t1 = 0 := by linarith
      subst e1
      refine ⟨fun hx => by unfold bothNeg at hx; exact lt_irrefl _ hx.1, ?_⟩
      simp only [pick, lt_irrefl, if_false]
      by_cases h2 : t2 < 0
      · simp [h2]
      · have : t2 = 0 := by linarith
        simp [this]
    · have e1 : t2 = 0 := by linarith
      subst e1
      refine ⟨fun hx => by unfold bothNeg at hx; exact lt_irrefl _ hx.2, ?_⟩
      have h1 : ¬ t1 < 0 := not_lt.2 hle
      simp [pick, h1, hle]

/-- **C73, C74, partial:** a ray that starts on the side surface of a cylinder and is not parallel to the axis, in whatever direction it goes, is
reported by both tests, and the point is the start. -/
theorem c74_surface_partial (s : Cylinder) (r : Ray3 ℝ) (hax : ¬ Axial r) (ho : r.origin.x * r.origin.x + r.origin.z * r.origin.z = s.radius * s.radius)
    (hy : -s.halfHeight ≤ r.origin.y ∧ r.origin.y ≤ s.halfHeight) :
    s.intersectsRay r = true ∧ s.intersectionRay r = some r.origin ∧ r.First (InCylinder s.halfHeight s.radius) 0 := by
  have h0 : r.at 0 = r.origin := by simp [Ray3.at, V3.ext_iff]
  obtain ⟨t1, t2, hq, hn, e⟩ := pick_surface hax ho
  refine ⟨?_, ?_, le_rfl, ?_, fun u hu _ => hu⟩
  · rw [cylinder_true_iff s r hax]
    refine ⟨t1, t2, hq, hn, .inl ?_⟩
    rw [e]
    have : r.origin + r.direction * (0 : ℝ) = r.origin := h0
    simp only [sideHit, this]; exact ⟨hy.2, hy.1⟩
  · obtain ⟨t, h1, -, h2⟩ := cylinder_inter_eq s r hq hn e
    rcases h1 with rfl | ⟨a, b, _⟩
    · rw [h2, h0, if_neg (by push Not; exact ⟨hy.2, hy.1⟩)]
    · linarith
  · rw [h0]; exact ⟨hy, le_of_eq ho⟩

theorem capUpdate_zero (R c : ℝ) (r : Ray3 ℝ) : capUpdate R c r (some 0) = some 0 := by
  unfold capUpdate
  dsimp only
  split
  · split
    · rw [if_neg (by rintro ⟨a, b⟩; linarith)]
    · rfl
  · rfl

/-- **C71, C72, partial:** a ray that starts on the straight side surface of a capsule and is not parallel to the axis, in whatever direction it goes,
is reported by both tests, and the point is the start. -/
theorem c72_surface_partial (s : Capsule) (hR : 0 ≤ s.radius) (hh : 0 ≤ s.halfHeight) (r : Ray3 ℝ) (hax : ¬ Axial r)
    (ho : r.origin.x * r.origin.x + r.origin.z * r.origin.z = s.radius * s.radius) (hy : -s.halfHeight ≤ r.origin.y ∧ r.origin.y ≤ s.halfHeight) :
    s.intersectsRay r = true ∧ s.intersectionRay r = some r.origin ∧ r.First (InCapsule s.halfHeight s.radius) 0 := by
  have h0 : r.at 0 = r.origin := by simp [Ray3.at, V3.ext_iff]
  obtain ⟨t1, t2, hq, hn, e⟩ := pick_surface hax ho
  have hin : InCapsule s.halfHeight s.radius (r.at 0) := by
    rw [h0]; exact (capsule_split hh hR _).2 (.inr (.inr ⟨hy, le_of_eq ho⟩))
  refine ⟨?_, ?_, le_rfl, hin, fun u hu _ => hu⟩
  · rw [capsule_true_iff]
    refine ⟨_, hq, hn, .inl ?_⟩
    rw [e]
    have : r.origin + r.direction * (0 : ℝ) = r.origin := h0
    simp only [sideHit, this]; exact ⟨hy.2, hy.1⟩
  · rw [capsule_inter_eval (t := 0) hq hn (by rw [e, capUpdate_zero, capUpdate_zero]) hR hin, h0]

/-- A ray that leaves the cylinder of radius 1 and half height 1 from `(1, 1/2, 0)`. -/
example : (⟨1, 1⟩ : Cylinder).intersectionRay ⟨⟨1, 1 / 2, 0⟩, ⟨1, 0, 0⟩⟩ = some ⟨1, 1 / 2, 0⟩ :=
  (c74_surface_partial ⟨1, 1⟩ ⟨⟨1, 1 / 2, 0⟩, ⟨1, 0, 0⟩⟩ (by norm_num [Axial]) (by norm_num) (by norm_num)).2.1

end
end Verif.Primitive
