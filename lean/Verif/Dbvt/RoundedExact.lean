import Verif.Dbvt.Rounded
/-!
# The rounded tests without rounding are the exact tests

`Dbvt/Rounded` models the ray and frustum tests with rounding after every operation. With exact operations (`rnd = id` on the extended reals) they are the
functions of `Geom/RayBox` and `Geom/Frustum`, so both models describe the same code.
-/
namespace Verif.Dbvt
open Verif Geom
set_option linter.unusedSectionVars false
noncomputable section

/-- The exact arithmetic: extended reals, nothing is rounded. -/
def exactR : Rounding EReal where
  val := id
  rnd := id
  val_le _ _ := Iff.rfl
  rnd_mono _ _ h := h
  rnd_val _ := rfl
  zero := 0
  one := 1
  inf := ⊤
  ninf := ⊥
  val_zero := rfl
  val_one := rfl
  val_inf := rfl
  val_ninf := rfl

/-- A point with real coordinates. -/
def V2.ereal (p : V2 ℝ) : V2 EReal := ⟨p.x, p.y⟩
/-- A point with real coordinates. -/
def V3.ereal (p : V3 ℝ) : V3 EReal := ⟨p.x, p.y, p.z⟩
/-- A box with real coordinates. -/
def box2E (b : Aabb2 ℝ) : Aabb2 EReal := ⟨V2.ereal b.min, V2.ereal b.max⟩
/-- A box with real coordinates. -/
def box3E (b : Aabb3 ℝ) : Aabb3 EReal := ⟨V3.ereal b.min, V3.ereal b.max⟩
/-- Numbers and infinities (NaN does not occur below). -/
def extE : Ext ℝ → EReal
  | .fin x => x
  | .pinf => ⊤
  | .ninf => ⊥
  | .nan => 0

theorem extE_le {a b : Ext ℝ} (ha : a ≠ .nan) (hb : b ≠ .nan) : Ext.le a b = true ↔ extE a ≤ extE b := by
  cases a <;> cases b <;> simp_all [Ext.le, extE]
theorem extE_lt {a b : Ext ℝ} (ha : a ≠ .nan) (hb : b ≠ .nan) : Ext.lt a b = true ↔ extE a < extE b := by
  cases a <;> cases b <;> simp_all [Ext.lt, extE]
theorem extE_fmin {a b : Ext ℝ} (ha : a ≠ .nan) (hb : b ≠ .nan) : extE (Ext.fmin a b) = min (extE a) (extE b) ∧ Ext.fmin a b ≠ .nan := by
  unfold Ext.fmin
  rw [if_neg ha, if_neg hb]
  by_cases h : Ext.le a b = true
  · rw [if_pos h, min_eq_left ((extE_le ha hb).1 h)]; exact ⟨rfl, ha⟩
  · rw [if_neg h, min_eq_right (le_of_lt (not_le.1 (fun h' => h ((extE_le ha hb).2 h'))))]; exact ⟨rfl, hb⟩
theorem extE_fmax {a b : Ext ℝ} (ha : a ≠ .nan) (hb : b ≠ .nan) : extE (Ext.fmax a b) = max (extE a) (extE b) ∧ Ext.fmax a b ≠ .nan := by
  unfold Ext.fmax
  rw [if_neg ha, if_neg hb]
  by_cases h : Ext.le a b = true
  · rw [if_pos h, max_eq_right ((extE_le ha hb).1 h)]; exact ⟨rfl, hb⟩
  · rw [if_neg h, max_eq_left (le_of_lt (not_le.1 (fun h' => h ((extE_le ha hb).2 h'))))]; exact ⟨rfl, ha⟩

theorem exact_div (lo o d : ℝ) (_hd : d ≠ 0) : exactR.div (exactR.sub (lo : EReal) o) d = (((lo - o) / d : ℝ) : EReal) := by
  simp only [exactR, Rounding.div, Rounding.sub, id]
  rw [← EReal.coe_sub, ← EReal.coe_div]

theorem exact_axis (lo hi o d : ℝ) (acc : Ext ℝ × Ext ℝ) (h1 : acc.1 ≠ .nan) (h2 : acc.2 ≠ .nan) :
    axisF exactR (lo : EReal) hi o d (extE acc.1, extE acc.2) = (axis2 lo hi o d acc).map (fun t => (extE t.1, extE t.2)) ∧
    ∀ t, axis2 lo hi o d acc = some t → t.1 ≠ .nan ∧ t.2 ≠ .nan := by
  unfold axisF axis2
  by_cases hd : d = 0
  · have hd' : ¬ ((d : EReal) ≠ exactR.zero) := by simp [exactR, hd]
    rw [if_neg (not_not.2 hd), if_neg hd']
    by_cases h : o ≤ lo ∨ hi ≤ o
    · rw [if_pos h, if_pos (by simpa using h)]; exact ⟨rfl, by simp⟩
    · rw [if_neg h, if_neg (by simpa using h)]
      refine ⟨rfl, ?_⟩
      rintro t ht; cases ht; exact ⟨h1, h2⟩
  · have hd' : (d : EReal) ≠ exactR.zero := by simpa [exactR] using hd
    rw [if_pos hd, if_pos hd']
    have a := extE_fmin (a := .fin ((lo - o) / d)) (b := .fin ((hi - o) / d)) (by simp) (by simp)
    have b := extE_fmax (a := .fin ((lo - o) / d)) (b := .fin ((hi - o) / d)) (by simp) (by simp)
    have c := extE_fmax h1 (b := (slab2 lo hi o d).1) a.2
    have e := extE_fmin h2 (b := (slab2 lo hi o d).2) b.2
    refine ⟨?_, ?_⟩
    · have a1 : extE (slab2 lo hi o d).1 = min (((lo - o) / d : ℝ) : EReal) (((hi - o) / d : ℝ) : EReal) := a.1
      have b1 : extE (slab2 lo hi o d).2 = max (((lo - o) / d : ℝ) : EReal) (((hi - o) / d : ℝ) : EReal) := b.1
      simp only [Option.map_some, c.1, e.1, a1, b1, exact_div _ _ _ hd]
    · rintro t ht; cases ht; exact ⟨c.2, e.2⟩

theorem slabs_finite {r : Ray2 ℝ} {b : Aabb2 ℝ} {t : Ext ℝ × Ext ℝ} (h : r.slabs b = some t) : t.1 ≠ .nan ∧ t.2 ≠ .nan := by
  unfold Ray2.slabs at h
  rw [Option.bind_eq_some_iff] at h
  obtain ⟨u, h1, h2⟩ := h
  have hu := (exact_axis _ _ _ _ (.ninf, .pinf) (by simp) (by simp)).2 u h1
  exact (exact_axis _ _ _ _ u hu.1 hu.2).2 t h2
theorem exact_slabs2 (r : Ray2 ℝ) (b : Aabb2 ℝ) :
    slabsF2 exactR (V2.ereal r.origin) (V2.ereal r.direction) (box2E b) = (r.slabs b).map fun t => (extE t.1, extE t.2) := by
  have h := exact_axis b.min.x b.max.x r.origin.x r.direction.x (.ninf, .pinf) (by simp) (by simp)
  unfold slabsF2 Ray2.slabs
  rw [show axisF exactR (box2E b).min.x (box2E b).max.x (V2.ereal r.origin).x (V2.ereal r.direction).x (exactR.ninf, exactR.inf) = _ from h.1]
  cases ha : axis2 b.min.x b.max.x r.origin.x r.direction.x (.ninf, .pinf) with
  | none => rfl
  | some u =>
    have hu := h.2 u ha
    simp only [Option.map_some, Option.bind_some]
    exact (exact_axis b.min.y b.max.y r.origin.y r.direction.y u hu.1 hu.2).1

/-- C99, the model without rounding (2D): the exact test of C30. -/
theorem c99_exact_intersects2 (r : Ray2 ℝ) (b : Aabb2 ℝ) :
    intersectsF2 exactR (V2.ereal r.origin) (V2.ereal r.direction) (box2E b) = r.intersectsAabb b := by
  unfold intersectsF2 Ray2.intersectsAabb
  rw [exact_slabs2]
  cases h : r.slabs b with
  | none => rfl
  | some t =>
    obtain ⟨h1, h2⟩ := slabs_finite h
    rw [Bool.eq_iff_iff]
    simp only [Option.map_some, Bool.and_eq_true, Bool.or_eq_true, decide_eq_true_eq, extE_le h1 h2,
      extE_le (a := .fin 0) (by simp) h1, extE_le (a := .fin 0) (by simp) h2]
    exact Iff.rfl

/-- C99, the model without rounding (2D): the exact intersection point of C30. -/
theorem c99_exact_intersection2 (r : Ray2 ℝ) (b : Aabb2 ℝ) (hb : b.Valid) (hd : r.direction ≠ 0) :
    intersectionF2 exactR (V2.ereal r.origin) (V2.ereal r.direction) (box2E b) = (r.intersectionAabb b).map fun p => ⟨extE p.x, extE p.y⟩ := by
  have hfin := (c30_ray_aabb2 r b hb hd).2.2
  unfold intersectionF2 Ray2.intersectionAabb at *
  rw [exact_slabs2]
  cases h : r.slabs b with
  | none => rfl
  | some t =>
    obtain ⟨h1, h2⟩ := slabs_finite h
    rw [h] at hfin
    simp only [Option.map_some, Option.bind_some] at hfin ⊢
    have e0 : exactR.zero = extE (.fin 0) := rfl
    have hc : ((Ext.lt t.1 (.fin 0) && Ext.lt t.2 (.fin 0)) || Ext.lt t.2 t.1) = true ↔
        (extE t.1 < exactR.zero ∧ extE t.2 < exactR.zero) ∨ extE t.2 < extE t.1 := by
      simp only [Bool.and_eq_true, Bool.or_eq_true, extE_lt h1 (b := .fin 0) (by simp), extE_lt h2 (b := .fin 0) (by simp), extE_lt h2 h1]
      exact Iff.rfl
    by_cases hcc : ((Ext.lt t.1 (.fin 0) && Ext.lt t.2 (.fin 0)) || Ext.lt t.2 t.1) = true
    · rw [if_pos hcc, if_pos (hc.1 hcc)]; rfl
    · rw [if_neg hcc] at hfin ⊢
      rw [if_neg (fun h => hcc (hc.2 h))]
      rw [e0]
      have hu : (if extE (.fin 0) ≤ extE t.1 then extE t.1 else extE t.2) = extE (if Ext.le (.fin 0) t.1 = true then t.1 else t.2) := by
        by_cases hl : Ext.le (.fin 0) t.1 = true
        · rw [if_pos hl, if_pos ((extE_le (by simp) h1).1 hl)]
        · rw [if_neg hl, if_neg (fun h => hl ((extE_le (by simp) h1).2 h))]
      rw [hu]
      have hnn : (if Ext.le (.fin 0) t.1 = true then t.1 else t.2) ≠ .nan := by split <;> assumption
      obtain ⟨u, -, hq, -, -⟩ := hfin _ rfl
      generalize (if Ext.le (.fin 0) t.1 = true then t.1 else t.2) = w at hq hnn ⊢
      have hw : ∃ x : ℝ, w = .fin x := by
        have hx := congrArg V2.x hq
        have hy := congrArg V2.y hq
        simp only [Ray2.atE, V2.toExt] at hx hy
        cases w with
        | fin x => exact ⟨x, rfl⟩
        | nan => exact absurd rfl hnn
        | pinf =>
          exfalso; apply hd
          apply V2.ext
          · by_contra hne
            simp only [V2.zero_x, V2.zero_y] at hne
            simp only [Ext.mul] at hx
            rw [if_neg hne] at hx
            split at hx <;> simp [Ext.add] at hx
          · by_contra hne
            simp only [V2.zero_x, V2.zero_y] at hne
            simp only [Ext.mul] at hy
            rw [if_neg hne] at hy
            split at hy <;> simp [Ext.add] at hy
        | ninf =>
          exfalso; apply hd
          apply V2.ext
          · by_contra hne
            simp only [V2.zero_x, V2.zero_y] at hne
            simp only [Ext.mul] at hx
            rw [if_neg hne] at hx
            split at hx <;> simp [Ext.add] at hx
          · by_contra hne
            simp only [V2.zero_x, V2.zero_y] at hne
            simp only [Ext.mul] at hy
            rw [if_neg hne] at hy
            split at hy <;> simp [Ext.add] at hy
      obtain ⟨x, rfl⟩ := hw
      simp only [Option.map_some, Ray2.atE, Ext.mul, Ext.add, extE, Rounding.add, Rounding.mul, exactR, id, V2.ereal,
        EReal.coe_add, EReal.coe_mul]

theorem exact_mul_inv (lo o d : ℝ) (hd : d ≠ 0) :
    exactR.mul (exactR.sub (lo : EReal) o) (exactR.div exactR.one (d : EReal)) = (((lo - o) * (1 / d) : ℝ) : EReal) := by
  simp only [exactR, Rounding.mul, Rounding.div, Rounding.sub, id]
  rw [← EReal.coe_sub, ← EReal.coe_one, ← EReal.coe_div, ← EReal.coe_mul]
theorem exact_slab3 (neg : Bool) (lo hi o d : ℝ) (hd : d ≠ 0) :
    slabF exactR (lo : EReal) hi o (exactR.div exactR.one (d : EReal)) =
      (extE (Ext.fmin (slabT neg lo hi o d).1 (slabT neg lo hi o d).2), extE (Ext.fmax (slabT neg lo hi o d).1 (slabT neg lo hi o d).2)) ∧
    (∃ x, Ext.fmin (slabT neg lo hi o d).1 (slabT neg lo hi o d).2 = .fin x) ∧ ∃ x, Ext.fmax (slabT neg lo hi o d).1 (slabT neg lo hi o d).2 = .fin x := by
  have e : slabT neg lo hi o d = (.fin ((lo - o) * (1 / d)), .fin ((hi - o) * (1 / d))) := by simp [slabT, Ext.inv, hd, Ext.mul]
  rw [e]
  refine ⟨?_, ?_, ?_⟩
  · rw [(extE_fmin (by simp) (by simp)).1, (extE_fmax (by simp) (by simp)).1]
    simp only [slabF, exact_mul_inv _ _ _ hd, extE]
  · simp only [Ext.fmin]; rw [if_neg (by simp), if_neg (by simp)]; split <;> exact ⟨_, rfl⟩
  · simp only [Ext.fmax]; rw [if_neg (by simp), if_neg (by simp)]; split <;> exact ⟨_, rfl⟩
theorem fmin_fin (x y : ℝ) : ∃ z, Ext.fmin (.fin x) (.fin y) = Ext.fin z := by
  simp only [Ext.fmin]; rw [if_neg (by simp), if_neg (by simp)]; split <;> exact ⟨_, rfl⟩
theorem fmax_fin (x y : ℝ) : ∃ z, Ext.fmax (.fin x) (.fin y) = Ext.fin z := by
  simp only [Ext.fmax]; rw [if_neg (by simp), if_neg (by simp)]; split <;> exact ⟨_, rfl⟩

theorem exact_slabs3 (nz : V3 Bool) (r : Ray3 ℝ) (b : Aabb3 ℝ) (hx : r.direction.x ≠ 0) (hy : r.direction.y ≠ 0) (hz : r.direction.z ≠ 0) :
    slabsF3 exactR (V3.ereal r.origin) (V3.ereal r.direction) (box3E b) = (extE (r.slabs nz b).1, extE (r.slabs nz b).2) ∧
    ∃ t u : ℝ, r.slabs nz b = (.fin t, .fin u) := by
  obtain ⟨x1, ⟨x2, x3⟩, ⟨x4, x5⟩⟩ := exact_slab3 nz.x b.min.x b.max.x r.origin.x r.direction.x hx
  obtain ⟨y1, ⟨y2, y3⟩, ⟨y4, y5⟩⟩ := exact_slab3 nz.y b.min.y b.max.y r.origin.y r.direction.y hy
  obtain ⟨z1, ⟨z2, z3⟩, ⟨z4, z5⟩⟩ := exact_slab3 nz.z b.min.z b.max.z r.origin.z r.direction.z hz
  have key : ∀ f g : ℝ, (Ext.fin f) ≠ Ext.nan ∧ (Ext.fin g) ≠ Ext.nan := fun _ _ => ⟨by simp, by simp⟩
  unfold slabsF3 Ray3.slabs
  dsimp only [box3E, V3.ereal]
  rw [x1, y1, z1, x3, x5, y3, y5, z3, z5]
  obtain ⟨m1, hm1⟩ := fmax_fin x2 y2
  obtain ⟨m2, hm2⟩ := fmin_fin x4 y4
  obtain ⟨m3, hm3⟩ := fmax_fin m1 z2
  obtain ⟨m4, hm4⟩ := fmin_fin m2 z4
  refine ⟨?_, ?_⟩
  · rw [(extE_fmax (by rw [hm1]; simp) (by simp)).1, (extE_fmax (by simp) (by simp)).1, (extE_fmin (by rw [hm2]; simp) (by simp)).1, (extE_fmin (by simp) (by simp)).1]
  · rw [hm1, hm2, hm3, hm4]; exact ⟨_, _, rfl⟩

/-- C99, the model without rounding (3D): the exact test and the exact intersection point of C31. -/
theorem c99_exact_ray3 (nz : V3 Bool) (r : Ray3 ℝ) (b : Aabb3 ℝ) (hx : r.direction.x ≠ 0) (hy : r.direction.y ≠ 0) (hz : r.direction.z ≠ 0) :
    intersectsF3 exactR (V3.ereal r.origin) (V3.ereal r.direction) (box3E b) = r.intersectsAabb nz b ∧
    intersectionF3 exactR (V3.ereal r.origin) (V3.ereal r.direction) (box3E b) = (r.intersectionAabb nz b).map fun p => ⟨extE p.x, extE p.y, extE p.z⟩ := by
  obtain ⟨h, t, u, htu⟩ := exact_slabs3 nz r b hx hy hz
  unfold intersectsF3 Ray3.intersectsAabb intersectionF3 Ray3.intersectionAabb
  rw [h, htu]
  have e0 : exactR.zero = ((0 : ℝ) : EReal) := rfl
  have e1 : extE (.fin t) = (t : EReal) := rfl
  have e2 : extE (.fin u) = (u : EReal) := rfl
  rw [e0, e1, e2]
  dsimp only
  refine ⟨?_, ?_⟩
  · rw [Bool.eq_iff_iff]
    simp only [Ext.le, EReal.coe_le_coe_iff]
  · have hc : ((Ext.lt (.fin t) (.fin 0) && Ext.lt (.fin u) (.fin 0)) || Ext.lt (.fin u) (.fin t)) = true ↔
        ((t : EReal) < ((0 : ℝ) : EReal) ∧ (u : EReal) < ((0 : ℝ) : EReal)) ∨ (u : EReal) < (t : EReal) := by
      simp only [Ext.lt, EReal.coe_lt_coe_iff, Bool.and_eq_true, Bool.or_eq_true, decide_eq_true_eq]
    have h0 : Ext.le (.fin 0) (.fin t) = true ↔ ((0 : ℝ) : EReal) ≤ (t : EReal) := by simp only [Ext.le, EReal.coe_le_coe_iff, decide_eq_true_eq]
    have this : ∀ w : ℝ, (⟨exactR.add (V3.ereal r.origin).x (exactR.mul (V3.ereal r.direction).x w), exactR.add (V3.ereal r.origin).y (exactR.mul (V3.ereal r.direction).y w),
        exactR.add (V3.ereal r.origin).z (exactR.mul (V3.ereal r.direction).z w)⟩ : V3 EReal) =
        ⟨extE (r.atE (.fin w)).x, extE (r.atE (.fin w)).y, extE (r.atE (.fin w)).z⟩ := by
      intro w
      simp only [Ray3.atE, Ext.mul, Ext.add, extE, Rounding.add, Rounding.mul, exactR, id, V3.ereal, EReal.coe_add, EReal.coe_mul]
    by_cases hcc : ((Ext.lt (.fin t) (.fin 0) && Ext.lt (.fin u) (.fin 0)) || Ext.lt (.fin u) (.fin t)) = true
    · rw [if_pos hcc, if_pos (hc.1 hcc)]; rfl
    · rw [if_neg hcc, if_neg (fun h => hcc (hc.2 h))]
      by_cases hl : Ext.le (.fin 0) (.fin t) = true
      · rw [if_pos hl, if_pos (h0.1 hl), this]; rfl
      · rw [if_neg hl, if_neg (fun h => hl (h0.2 h)), this]; rfl

/-- A plane with real coefficients. -/
def planeE (p : Plane ℝ) : PlaneF EReal := ⟨V3.ereal p.n, p.d⟩

/-- C99, the model without rounding: the exact relation of a point and a plane. -/
theorem exact_relatePoint (q : V3 ℝ) (p : Plane ℝ) : relatePointF exactR (V3.ereal q) (planeE p) = q.relatePlane p := by
  have : exactR.add (exactR.add (exactR.mul (V3.ereal q).x (planeE p).n.x) (exactR.mul (V3.ereal q).y (planeE p).n.y)) (exactR.mul (V3.ereal q).z (planeE p).n.z) =
      ((q.dot p.n : ℝ) : EReal) := by
    simp only [exactR, Rounding.add, Rounding.mul, id, V3.ereal, planeE, V3.dot, EReal.coe_add, EReal.coe_mul]
  unfold relatePointF V3.relatePlane
  rw [this]
  simp only [planeE, EReal.coe_lt_coe_iff, gt_iff_lt]

/-- C99, the model without rounding: the exact relation of a box and a plane. -/
theorem exact_relateBox (b : Aabb3 ℝ) (p : Plane ℝ) : relateBoxF exactR (box3E b) (planeE p) = b.relatePlane p := by
  have h : ∀ x y z : ℝ, relatePointF exactR ⟨x, y, z⟩ (planeE p) = (⟨x, y, z⟩ : V3 ℝ).relatePlane p := fun x y z => exact_relatePoint ⟨x, y, z⟩ p
  have hm : relatePointF exactR (box3E b).min (planeE p) = b.min.relatePlane p := exact_relatePoint b.min p
  unfold relateBoxF Aabb3.relatePlane
  rw [hm]
  simp only [Aabb3.toCorners, box3E, V3.ereal, List.tail_cons, List.any_cons, List.any_nil, h]
  rfl

/-- C99, the model without rounding: the exact frustum test. -/
theorem c99_exact_frustum (f : Frustum ℝ) (b : Aabb3 ℝ) : frustumF exactR (f.planes.map planeE) (box3E b) = f.contains b.relatePlane := by
  unfold frustumF Frustum.contains
  rw [List.foldl_map]
  simp only [exact_relateBox]

end
end Verif.Dbvt
