import Verif.Scene.SphereCulling
/-!
# C125: the planes of a projection matrix in rounded arithmetic

`Frustum::from_matrix4` adds and subtracts rows of the matrix and normalises the planes. In rounded arithmetic the planes it returns have normals of length 1 up to `8u`, and their signed distances differ by at most `10 u (|p| + |d|)` from
those of the exact planes, when the exact normals are not shorter than twice the machine epsilon; when one of them is shorter than that, no frustum is returned at all, because `ulps_eq!` takes the normal for zero (finding 50).
-/
namespace Verif.Scene
open Verif Geom Primitive Minkowski
open Verif.Dbvt (Rounding SphereF subF mag2F Ops Hist Dbvt Exec Disciplined UpToDate Refitted! pureVisitor Given PlaneF F64 binary64 Rep64 relateBoxF frustumF)
open Verif.Dbvt.B32 (F32 binary32 Rep32)
set_option linter.unusedSectionVars false
noncomputable section
open Classical
variable {F : Type} [LinearOrder F] {R : Rounding F} {u η Ω N M E : ℝ}

section model
variable (R : Rounding F)
/-- rounded negation (exact in the formats) -/
def negF (a : F) : F := R.rnd (-R.val a)
/-- `Vector4: Add` in rounded arithmetic -/
def addV4F (a b : V4 F) : V4 F := ⟨R.add a.x b.x, R.add a.y b.y, R.add a.z b.z, R.add a.w b.w⟩
/-- `Vector4: Sub` in rounded arithmetic -/
def subV4F (a b : V4 F) : V4 F := ⟨R.sub a.x b.x, R.sub a.y b.y, R.sub a.z b.z, R.sub a.w b.w⟩
/-- `Plane::from_vector4_alt`, `src/plane.rs:70-75` -/
def altF (v : V4 F) : PlaneF F := ⟨⟨v.x, v.y, v.z⟩, negF R v.w⟩
/-- `ulps_eq!(v, Vector3::zero())`: every component is at most `eps` in absolute value -/
def NearZeroF (eps : F) (v : V3 F) : Prop := (v.x ≤ eps ∧ negF R v.x ≤ eps) ∧ (v.y ≤ eps ∧ negF R v.y ≤ eps) ∧ (v.z ≤ eps ∧ negF R v.z ≤ eps)
/-- `Plane::normalize`, `src/plane.rs:104-111` -/
def normalizeF (eps : F) (P : PlaneF F) : Option (PlaneF F) :=
  if NearZeroF R eps P.n then none else
  let denom := R.div R.one (R.sqrt (mag2F R P.n))
  some ⟨⟨R.mul P.n.x denom, R.mul P.n.y denom, R.mul P.n.z denom⟩, R.mul P.d denom⟩
/-- `Frustum::from_matrix4`, `src/frustum.rs:53-80`; the planes in the order in which `contains` goes through them, `src/frustum.rs:84-91` -/
def fromMatrix4F (eps : F) (m : M4 F) : Option (List (PlaneF F)) := do
  let left ← normalizeF R eps (altF R (addV4F R m.r3 m.r0))
  let right ← normalizeF R eps (altF R (subV4F R m.r3 m.r0))
  let bottom ← normalizeF R eps (altF R (addV4F R m.r3 m.r1))
  let top ← normalizeF R eps (altF R (subV4F R m.r3 m.r1))
  let near ← normalizeF R eps (altF R (addV4F R m.r3 m.r2))
  let far ← normalizeF R eps (altF R (subV4F R m.r3 m.r2))
  some [left, right, top, bottom, near, far]
/-- `PlaneBound::relate_clip_space` (default method), `src/bound.rs:28-49`, for a bound whose `relate_plane` is `relate` -/
def relateClipF (eps : F) (relate : PlaneF F → Relation) (m : M4 F) : Relation :=
  match fromMatrix4F R eps m with
  | some f => f.foldl (fun cur p => cur.max (relate p)) .In
  | none => .Cross
/-- The four numbers of a row, rounded. -/
def rowR (v : V4 ℝ) : V4 F := ⟨numR R v.x, numR R v.y, numR R v.z, numR R v.w⟩
/-- The matrix with rounded entries. -/
def matR (m : M4 ℝ) : M4 F := ⟨rowR R m.r0, rowR R m.r1, rowR R m.r2, rowR R m.r3⟩
/-- The entries are numbers of the format and at most `N` in size. -/
def RowIn (N : ℝ) (v : V4 ℝ) : Prop := (Rep R v.x ∧ Rep R v.y ∧ Rep R v.z ∧ Rep R v.w) ∧ |v.x| ≤ N ∧ |v.y| ≤ N ∧ |v.z| ≤ N ∧ |v.w| ≤ N
/-- The same of all rows. -/
def MatIn (N : ℝ) (m : M4 ℝ) : Prop := RowIn R N m.r0 ∧ RowIn R N m.r1 ∧ RowIn R N m.r2 ∧ RowIn R N m.r3
end model

/-! ## Specification -/
/-- The normal part of a row. -/
def V4.normal (v : V4 ℝ) : V3 ℝ := ⟨v.x, v.y, v.z⟩
/-- The six linear forms that are positive at the points inside the clip volume: `w + x`, `w - x`, `w - y`, `w + y`, `w + z` and `w - z` of the transformed point. -/
def M4.forms (m : M4 ℝ) : List (V4 ℝ) := [m.r3.add m.r0, m.r3.sub m.r0, m.r3.sub m.r1, m.r3.add m.r1, m.r3.add m.r2, m.r3.sub m.r2]
/-- The signed distance of a point to the plane on which a form is zero. -/
def V4.depth (v : V4 ℝ) (p : V3 ℝ) : ℝ := v.dot p.hom / (V4.normal v).norm
/-- How far the plane on which a form is zero is from the origin. -/
def V4.far (v : V4 ℝ) : ℝ := |v.w| / (V4.normal v).norm

/-- What the arithmetic must satisfy for a matrix with entries up to `N`: the standard model with underflow and overflow out of the way, and `E`, the tolerance of `ulps_eq!`, is at most twice the unit roundoff. -/
structure MatStd (R : Rounding F) (u η Ω N E : ℝ) : Prop where
  std : Std R u η Ω
  u' : u ≤ 1 / 4096
  N0 : 0 ≤ N
  low : 64 * η ≤ u * u * u
  high : 512 * (N * η) ≤ u
  wide : 4 * N + 4 ≤ u * Ω
  sq : 256 * (N * N) + 256 ≤ Ω
  lin : 16 * N ≤ Ω
  pos : 0 < u
  repE : Rep R E
  E0 : 0 ≤ E
  E1 : E ≤ 2 * u

/-! ## Real numbers -/
/-- Componentwise errors in a vector. -/
theorem norm_comp {a b : V3 ℝ} {c e : ℝ} (hc : 0 ≤ c) (he : 0 ≤ e) (hx : |a.x| ≤ c * |b.x| + e) (hy : |a.y| ≤ c * |b.y| + e) (hz : |a.z| ≤ c * |b.z| + e) : a.norm ≤ c * b.norm + 2 * e := by
  have hb := b.norm_nonneg
  rw [V3.norm_le_iff _ (by positivity)]
  have h := b.norm_sq
  simp only [V3.dot] at h ⊢
  have sq : ∀ {x y : ℝ}, |x| ≤ c * |y| + e → x * x ≤ (c * |y| + e) * (c * |y| + e) := by
    intro x y hxy
    rw [← abs_mul_abs_self x]
    exact mul_self_le_mul_self (abs_nonneg _) hxy
  have h1 := sq hx
  have h2 := sq hy
  have h3 := sq hz
  have k : |b.x| + |b.y| + |b.z| ≤ 2 * b.norm := by
    refine le_of_sq_le_sq ?_ (by linarith)
    have ax := abs_mul_abs_self b.x
    have ay := abs_mul_abs_self b.y
    have az := abs_mul_abs_self b.z
    nlinarith [sq_nonneg (|b.x| - |b.y|), sq_nonneg (|b.x| - |b.z|), sq_nonneg (|b.y| - |b.z|)]
  have k' := mul_le_mul_of_nonneg_left k (mul_nonneg hc he)
  have ax := abs_mul_abs_self b.x
  have ay := abs_mul_abs_self b.y
  have az := abs_mul_abs_self b.z
  have e1 : ∀ y : ℝ, (c * |y| + e) * (c * |y| + e) = c * c * (|y| * |y|) + 2 * (c * e * |y|) + e * e := fun y => by ring
  rw [e1] at h1 h2 h3
  rw [ax] at h1
  rw [ay] at h2
  rw [az] at h3
  have e2 : (c * b.norm + 2 * e) * (c * b.norm + 2 * e) = c * c * (b.norm * b.norm) + 2 * (c * e * (2 * b.norm)) + 4 * (e * e) := by ring
  rw [e2, h]
  have := mul_self_nonneg e
  nlinarith

/-! ## One plane -/
theorem rneg {x : ℝ} (hx : Rep R x) : negF R (toF R x) = toF R (-x) := toF_neg hx

/-- The square of the length of a representable vector. -/
theorem mag2_err (h : MatStd R u η Ω N E) {v : V3 ℝ} (rv : Rep3 R v) (hv : Sz3 (3 * N) v) :
    ∃ D, Rep R D ∧ mag2F R (toV3 R v) = toF R D ∧ 0 ≤ D ∧ |D - v.norm * v.norm| ≤ 31 / 10 * (u * (v.norm * v.norm)) + 6 * η := by
  have hu := h.pos.le
  have hu' := h.u'
  have hη := h.std.η0
  have hη1 := h.std.η1
  have hsq := h.sq
  have hN := h.N0
  have one : ∀ x : ℝ, Rep R x → |x| ≤ 3 * N → ∃ p, Rep R p ∧ R.mul (toF R x) (toF R x) = toF R p ∧ 0 ≤ p ∧ |p - x * x| ≤ u * (x * x) + η ∧ x * x ≤ 9 * (N * N) := by
    intro x rx hx
    have hxx : x * x ≤ 9 * (N * N) := by
      rw [← abs_mul_abs_self x]
      have := mul_self_le_mul_self (abs_nonneg x) hx
      linarith
    have x0 := mul_self_nonneg x
    obtain ⟨p, rp, ep, dp⟩ := h.std.err (x * x) (by rw [abs_of_nonneg x0]; linarith [mul_self_nonneg N])
    rw [abs_of_nonneg x0] at dp
    exact ⟨p, rp, by rw [rmul rx rx, ep], fl_ge rp rep_zero ep x0, dp, hxx⟩
  obtain ⟨p1, r1, e1, z1, d1, s1⟩ := one v.x rv.1 hv.1
  obtain ⟨p2, r2, e2, z2, d2, s2⟩ := one v.y rv.2.1 hv.2.1
  obtain ⟨p3, r3, e3, z3, d3, s3⟩ := one v.z rv.2.2 hv.2.2
  rw [V3.norm_sq]
  have eS : v.dot v = v.x * v.x + v.y * v.y + v.z * v.z := rfl
  set S := v.dot v
  have dx0 := mul_self_nonneg v.x
  have dy0 := mul_self_nonneg v.y
  have dz0 := mul_self_nonneg v.z
  generalize v.x * v.x = X at *
  generalize v.y * v.y = Y at *
  generalize v.z * v.z = Z at *
  have uX : u * X ≤ 1 / 4096 * X := mul_le_mul_of_nonneg_right hu' dx0
  have uY : u * Y ≤ 1 / 4096 * Y := mul_le_mul_of_nonneg_right hu' dy0
  have uZ : u * Z ≤ 1 / 4096 * Z := mul_le_mul_of_nonneg_right hu' dz0
  have uX0 := mul_nonneg hu dx0
  have uY0 := mul_nonneg hu dy0
  have uZ0 := mul_nonneg hu dz0
  have uS : u * S = u * X + u * Y + u * Z := by rw [eS]; ring
  have q1 := abs_le.1 d1
  have q2 := abs_le.1 d2
  have q3 := abs_le.1 d3
  have S0 : 0 ≤ S := by linarith
  have N0 := mul_self_nonneg N
  have uuS : u * (u * S) ≤ 1 / 4096 * (u * S) := mul_le_mul_of_nonneg_right hu' (by linarith)
  have uη : u * η ≤ 1 / 4096 * η := mul_le_mul_of_nonneg_right hu' hη
  obtain ⟨q, rq, eq, dq⟩ := h.std.err (p1 + p2) (by rw [abs_of_nonneg (by linarith)]; linarith)
  rw [abs_of_nonneg (show 0 ≤ p1 + p2 by linarith)] at dq
  have w1 : u * (p1 + p2) ≤ 101 / 100 * (u * S) + 1 / 256 * η := by
    have : u * (p1 + p2) ≤ u * (S + u * S + 2 * η) := mul_le_mul_of_nonneg_left (by linarith) hu
    linarith
  have dq' := abs_le.1 dq
  have q0 : 0 ≤ q := fl_ge rq rep_zero eq (by linarith)
  obtain ⟨D, rD, eD, dD⟩ := h.std.err (q + p3) (by rw [abs_of_nonneg (by linarith)]; linarith)
  rw [abs_of_nonneg (show 0 ≤ q + p3 by linarith)] at dD
  have w2 : u * (q + p3) ≤ 101 / 100 * (u * S) + 1 / 256 * η := by
    have : u * (q + p3) ≤ u * (S + 3 * (u * S) + 6 * η) := mul_le_mul_of_nonneg_left (by linarith) hu
    linarith
  have dD' := abs_le.1 dD
  refine ⟨D, rD, ?_, fl_ge rD rep_zero eD (by linarith), ?_⟩
  · show R.add (R.add (R.mul (toF R v.x) (toF R v.x)) (R.mul (toF R v.y) (toF R v.y))) (R.mul (toF R v.z) (toF R v.z)) = _
    rw [e1, e2, e3, radd r1 r2, eq, radd rq r3, eD]
  · rw [abs_le]
    constructor <;> linarith

/-- The reciprocal of the length of a representable vector that is not too short. -/
theorem inv_norm_err (h : MatStd R u η Ω N E) {v : V3 ℝ} (rv : Rep3 R v) (hv : Sz3 (3 * N) v) (hl : 3 * u ≤ v.norm) :
    ∃ t, Rep R t ∧ R.div R.one (R.sqrt (mag2F R (toV3 R v))) = toF R t ∧ 0 ≤ t ∧ |t * v.norm - 1| ≤ 27 / 5 * u := by
  have hu := h.pos.le
  have up := h.pos
  have hu' := h.u'
  have hη := h.std.η0
  have hsq := h.sq
  have hN := h.N0
  have NN := mul_self_nonneg N
  obtain ⟨D, rD, eD, D0, dD⟩ := mag2_err h rv hv
  have hvn : v.norm ≤ 6 * N := by
    have := norm_comp (a := v) (b := 0) (c := 0) (e := 3 * N) le_rfl (by linarith) (by linarith [hv.1]) (by linarith [hv.2.1]) (by linarith [hv.2.2])
    linarith
  set l := v.norm
  have lp : 0 < l := by linarith
  have low := h.low
  have ll : 9 * (u * u) ≤ l * l := by
    have := mul_self_le_mul_self (by linarith : 0 ≤ 3 * u) hl
    linarith
  have ull := mul_le_mul_of_nonneg_left ll hu
  have hs := sqrt_near (c := 16 / 5 * u) (e := 0) lp.le (by linarith) le_rfl D0 (by linarith)
  have s0 := Real.sqrt_nonneg D
  set s := Real.sqrt D
  have hs' := abs_le.1 hs
  have ul : u * l ≤ 1 / 4096 * l := mul_le_mul_of_nonneg_right hu' lp.le
  have uul : u * (u * l) ≤ 1 / 4096 * (u * l) := mul_le_mul_of_nonneg_right hu' (by positivity)
  have sl : s ≤ 101 / 100 * l := by linarith
  have lin := h.lin
  obtain ⟨m, rm, em, dm⟩ := h.std.err s (by rw [abs_of_nonneg s0]; linarith)
  rw [abs_of_nonneg s0] at dm
  have us : u * s ≤ 101 / 100 * (u * l) := by
    have := mul_le_mul_of_nonneg_left sl hu
    linarith
  have us' : u * s ≤ u * l + 1 / 1000 * (u * l) := by
    have := mul_le_mul_of_nonneg_left (show s ≤ l + 16 / 5 * (u * l) by linarith) hu
    linarith
  have ηl : η ≤ 1 / 1000 * (u * l) := by
    have h1 : u * (3 * u) ≤ u * l := mul_le_mul_of_nonneg_left hl hu
    have h2 : u * (u * u) ≤ 1 / 4096 * (u * u) := mul_le_mul_of_nonneg_right hu' (by positivity)
    linarith
  have dm' := abs_le.1 dm
  have hml : |m - l| ≤ 43 / 10 * (u * l) := by
    rw [abs_le]
    constructor <;> linarith
  have hml' := abs_le.1 hml
  have mp : 99 / 100 * l ≤ m := by linarith
  have mp0 : 0 < m := by linarith
  have hinv : 1 / m ≤ Ω := by
    rw [div_le_iff₀ mp0]
    have h1 : u * Ω ≥ 4 := by linarith [h.wide]
    have hΩ0 : 0 ≤ Ω := by linarith
    have : Ω * (2 * u) ≤ Ω * m := mul_le_mul_of_nonneg_left (by linarith) hΩ0
    linarith
  have inv0 : 0 ≤ 1 / m := by positivity
  obtain ⟨t, rt, et, dt⟩ := h.std.err (1 / m) (by rw [abs_of_nonneg inv0]; exact hinv)
  rw [abs_of_nonneg inv0] at dt
  have lm : l / m ≤ 1 + 431 / 100 * u := by
    rw [div_le_iff₀ mp0]
    have : (431 / 100 * u) * (m - l) ≥ -(431 / 100 * u * (43 / 10 * (u * l))) := by
      have := mul_le_mul_of_nonneg_left hml'.1 (by linarith : 0 ≤ 431 / 100 * u)
      linarith
    nlinarith
  have lm' : 1 - 43 / 10 * u ≤ l / m := by
    rw [le_div_iff₀ mp0]
    have := mul_le_mul_of_nonneg_left hml'.2 hu
    have h3 : 0 ≤ 1 - 43 / 10 * u := by linarith
    have h4 : (1 - 43 / 10 * u) * m ≤ (1 - 43 / 10 * u) * (l + 43 / 10 * (u * l)) := mul_le_mul_of_nonneg_left (by linarith) h3
    have h5 : 0 ≤ u * (u * l) := by positivity
    nlinarith
  have ηl2 : η * l ≤ 1 / 50 * u := by
    have h1 : η * l ≤ η * (6 * N) := mul_le_mul_of_nonneg_left hvn hη
    have := h.high
    linarith
  refine ⟨t, rt, ?_, fl_ge rt rep_zero et inv0, ?_⟩
  · rw [eD, rsqrt rD, em, show (R.one : F) = toF R 1 from toF_one.symm, rdiv rep_one rm, et]
  · have e : t * l - 1 = (t - 1 / m) * l + (l / m - 1) := by field_simp; ring
    have k : |(t - 1 / m) * l| ≤ (u * (1 / m) + η) * l := by
      rw [abs_mul, abs_of_pos lp]
      exact mul_le_mul_of_nonneg_right dt lp.le
    have k2 : (u * (1 / m) + η) * l = u * (l / m) + η * l := by ring
    rw [k2] at k
    have k3 : u * (l / m) ≤ u * (1 + 431 / 100 * u) := mul_le_mul_of_nonneg_left lm hu
    have uu : u * u ≤ 1 / 4096 * u := mul_le_mul_of_nonneg_right hu' hu
    have k' := abs_le.1 k
    rw [e, abs_le]
    constructor <;> linarith

/-- One coefficient. -/
theorem coef_err (h : MatStd R u η Ω N E) {x t l : ℝ} (rx : Rep R x) (rt : Rep R t) (lp : 0 < l) (ht : |t * l - 1| ≤ 27 / 5 * u) (hx : 2 * (|x| / l) ≤ Ω) :
    ∃ y, Rep R y ∧ R.mul (toF R x) (toF R t) = toF R y ∧ |y - x / l| ≤ 13 / 2 * (u * (|x| / l)) + η := by
  have hu := h.pos.le
  have hu' := h.u'
  have a0 : 0 ≤ |x| / l := by positivity
  have e : x * t - x / l = (x / l) * (t * l - 1) := by field_simp
  have k : |x * t - x / l| ≤ |x| / l * (27 / 5 * u) := by
    rw [e, abs_mul, abs_div, abs_of_pos lp]
    exact mul_le_mul_of_nonneg_left ht a0
  have ua : u * (|x| / l) ≤ 1 / 4096 * (|x| / l) := mul_le_mul_of_nonneg_right hu' a0
  have uua : u * (u * (|x| / l)) ≤ 1 / 4096 * (u * (|x| / l)) := mul_le_mul_of_nonneg_right hu' (by positivity)
  have hxt : |x * t| ≤ |x| / l + 27 / 5 * (u * (|x| / l)) := by
    have h1 : |x / l| = |x| / l := by rw [abs_div, abs_of_pos lp]
    have h2 := abs_add_le (x * t - x / l) (x / l)
    rw [h1, sub_add_cancel] at h2
    linarith
  obtain ⟨y, ry, ey, dy⟩ := h.std.err (x * t) (by linarith)
  refine ⟨y, ry, by rw [rmul rx rt, ey], ?_⟩
  have h3 := mul_le_mul_of_nonneg_left hxt hu
  have h4 := abs_add_le (y - x * t) (x * t - x / l)
  rw [sub_add_sub_cancel] at h4
  have h5 : 0 ≤ u * (|x| / l) := by positivity
  linarith

/-- What is known of a computed plane `P` for a form `v`. -/
structure Computed (R : Rounding F) (u η : ℝ) (v : V4 ℝ) (P : Plane ℝ) : Prop where
  rn : Rep3 R P.n
  rd : Rep R P.d
  unit : |P.n.norm - 1| ≤ 8 * u
  normal : (P.n - V4.normal v / (V4.normal v).norm).norm ≤ 10 * u
  shift : |P.d + v.w / (V4.normal v).norm| ≤ 10 * (u * V4.far v) + η / u

set_option maxHeartbeats 1000000 in
/-- `normalize` of a plane whose coefficients are those of a form, rounded. -/
theorem normalize_err (h : MatStd R u η Ω N E) {v w : V4 ℝ} (rx : Rep R w.x) (ry : Rep R w.y) (rz : Rep R w.z) (rw' : Rep R w.w)
    (hx : |w.x - v.x| ≤ u * |v.x| + η) (hy : |w.y - v.y| ≤ u * |v.y| + η) (hz : |w.z - v.z| ≤ u * |v.z| + η) (hw : |w.w - v.w| ≤ u * |v.w| + η)
    (sx : |v.x| ≤ 2 * N) (sy : |v.y| ≤ 2 * N) (sz : |v.z| ≤ 2 * N) (sw : |v.w| ≤ 2 * N) (hL : 4 * u ≤ (V4.normal v).norm) :
    ∃ P, Computed R u η v P ∧ normalizeF R (numR R E) (altF R (rowR R w)) = some (planeR R P) := by
  have hu := h.pos.le
  have up := h.pos
  have hu' := h.u'
  have hη := h.std.η0
  have hN := h.N0
  have low := h.low
  have uu : u * (u * u) ≤ 1 / 4096 * (u * u) := mul_le_mul_of_nonneg_right hu' (by positivity)
  have uu1 : u * u ≤ 1 / 4096 * u := mul_le_mul_of_nonneg_right hu' hu
  set n : V3 ℝ := V4.normal v with hn
  set a : V3 ℝ := V4.normal w with ha
  set L := n.norm with hLd
  have Lp : 0 < L := by linarith
  have uL : u * L ≤ 1 / 4096 * L := mul_le_mul_of_nonneg_right hu' Lp.le
  have ηL : 2 * η ≤ 1 / 100 * (u * L) := by
    have h1 : u * (4 * u) ≤ u * L := mul_le_mul_of_nonneg_left hL hu
    linarith
  have hdiff : (a - n).norm ≤ 101 / 100 * (u * L) := by
    have := norm_comp (a := a - n) (b := n) (c := u) (e := η) hu hη hx hy hz
    linarith
  set l := a.norm with hl
  have hlL : |l - L| ≤ 101 / 100 * (u * L) := by
    have h1 := V3.norm_tri a n 0
    have h2 := V3.norm_tri n a 0
    rw [V3.norm_sub_comm n a] at h2
    have z : ∀ q : V3 ℝ, q - 0 = q := fun q => by ext <;> simp
    rw [z, z] at h1 h2
    rw [abs_le]
    constructor <;> linarith
  have hlL' := abs_le.1 hlL
  have hl3 : 39 / 10 * u ≤ l := by linarith
  have lp : 0 < l := by linarith
  have size : ∀ {x y : ℝ}, |y - x| ≤ u * |x| + η → |x| ≤ 2 * N → |y| ≤ 3 * N := by
    intro x y h1 h2
    have h3 : u * |x| ≤ 1 / 4096 * |x| := mul_le_mul_of_nonneg_right hu' (abs_nonneg _)
    have h4 := abs_add_le (y - x) x
    rw [sub_add_cancel] at h4
    have h5 : η ≤ 1 / 4 * N := by
      have : L ≤ 4 * N := by
        have := norm_comp (a := n) (b := 0) (c := 0) (e := 2 * N) le_rfl (by linarith) (by linarith [show |n.x| ≤ 2 * N from sx]) (by linarith [show |n.y| ≤ 2 * N from sy]) (by linarith [show |n.z| ≤ 2 * N from sz])
        linarith
      linarith
    linarith
  have sa : Sz3 (3 * N) a := ⟨size hx sx, size hy sy, size hz sz⟩
  have ra : Rep3 R a := ⟨rx, ry, rz⟩
  obtain ⟨t, rt, et, t0, dt⟩ := inv_norm_err h ra sa (by linarith)
  have hΩ2 : 2 ≤ Ω := by linarith [h.sq, mul_self_nonneg N]
  have comp := comp_le_norm a
  have hc1 : ∀ x : ℝ, |x| ≤ l → 2 * (|x| / l) ≤ Ω := by
    intro x hx'
    have : |x| / l ≤ 1 := (div_le_one lp).2 hx'
    linarith
  obtain ⟨y1, r1, e1, d1⟩ := coef_err h rx rt lp dt (hc1 _ comp.1)
  obtain ⟨y2, r2, e2, d2⟩ := coef_err h ry rt lp dt (hc1 _ comp.2.1)
  obtain ⟨y3, r3, e3, d3⟩ := coef_err h rz rt lp dt (hc1 _ comp.2.2)
  have hww := size hw sw
  have rnw : Rep R (-w.w) := h.std.rep_neg (by linarith [h.lin]) rw'
  have hwl : 2 * (|(-w.w)| / l) ≤ Ω := by
    rw [abs_neg]
    have h1 : |w.w| / l ≤ 3 * N / (3 * u) := by
      refine div_le_div₀ (by linarith) hww (by linarith) (by linarith)
    have h2 : 3 * N / (3 * u) = N / u := by field_simp
    have h3 : N / u ≤ Ω / 4 := by
      rw [div_le_iff₀ up]
      linarith [h.wide]
    linarith
  obtain ⟨y4, r4, e4, d4⟩ := coef_err h rnw rt lp dt hwl
  -- the zero test fails
  have hnz : ¬ NearZeroF R (numR R E) (altF R (rowR R w)).n := by
    rintro ⟨⟨q1, q2⟩, ⟨q3, q4⟩, q5, q6⟩
    have key : ∀ x : ℝ, Rep R x → |x| ≤ 3 * N → numR R x ≤ numR R E → negF R (numR R x) ≤ numR R E → |x| ≤ 2 * u := by
      intro x hx' hs k1 k2
      have hxE : x ≤ E := (toF_le hx' h.repE).1 k1
      have k3 : toF R (-x) ≤ toF R E := by
        have := rneg hx'
        rw [← this]
        exact k2
      have hxE' : -x ≤ E := (toF_le (h.std.rep_neg (by linarith [h.lin]) hx') h.repE).1 k3
      have := h.E1
      rw [abs_le]
      constructor <;> linarith
    have b1 := key w.x rx sa.1 q1 q2
    have b2 := key w.y ry sa.2.1 q3 q4
    have b3 := key w.z rz sa.2.2 q5 q6
    have hs := a.norm_sq
    simp only [V3.dot] at hs
    have sq : ∀ {x : ℝ}, |x| ≤ 2 * u → x * x ≤ 4 * (u * u) := by
      intro x hx'
      rw [← abs_mul_abs_self x]
      have := mul_self_le_mul_self (abs_nonneg _) hx'
      linarith
    have c1 : a.x * a.x ≤ 4 * (u * u) := sq b1
    have c2 : a.y * a.y ≤ 4 * (u * u) := sq b2
    have c3 : a.z * a.z ≤ 4 * (u * u) := sq b3
    have c4 : 39 / 10 * u * (39 / 10 * u) ≤ l * l := mul_self_le_mul_self (by linarith) hl3
    have : 0 < u * u := by positivity
    linarith
  have hunit : (⟨y1, y2, y3⟩ - a / l : V3 ℝ).norm ≤ 7 * u := by
    have hb : (a / l).norm = 1 := by
      have : a / l = a * (1 / l) := by ext <;> simp <;> ring
      rw [this, V3.norm_smul, abs_of_pos (by positivity), ← hl]
      field_simp
    have c : ∀ {x y : ℝ}, |y - x / l| ≤ 13 / 2 * (u * (|x| / l)) + η → |y - x / l| ≤ 13 / 2 * u * |x / l| + η := by
      intro x y h1
      rw [abs_div, abs_of_pos lp]
      linarith
    have := norm_comp (a := ⟨y1, y2, y3⟩ - a / l) (b := a / l) (c := 13 / 2 * u) (e := η) (by linarith) hη (c d1) (c d2) (c d3)
    rw [hb] at this
    linarith
  have hdir : (a / l - n / L : V3 ℝ).norm ≤ 207 / 100 * u := by
    have e : a / l - n / L = (a - n) * (1 / l) - n * ((l - L) / (l * L)) := by
      ext <;> simp <;> field_simp <;> ring
    have h1 := V3.norm_tri ((a - n) * (1 / l)) 0 (n * ((l - L) / (l * L)))
    have z : ∀ q : V3 ℝ, q - 0 = q := fun q => by ext <;> simp
    rw [z, V3.norm_sub_comm 0, z, V3.norm_smul, V3.norm_smul, abs_of_pos (by positivity : 0 < 1 / l), ← e, abs_div, abs_of_pos (by positivity : 0 < l * L)] at h1
    have h2 : (a - n).norm * (1 / l) ≤ 103 / 100 * u := by
      rw [mul_one_div, div_le_iff₀ lp]
      have := mul_le_mul_of_nonneg_left (show L ≤ 1001 / 1000 * l by linarith) hu
      nlinarith
    have h3 : n.norm * (|l - L| / (l * L)) ≤ 104 / 100 * u := by
      have : n.norm * (|l - L| / (l * L)) = |l - L| / l := by
        rw [← hLd]
        field_simp
      rw [this, div_le_iff₀ lp]
      have := mul_le_mul_of_nonneg_left (show L ≤ 1001 / 1000 * l by linarith) hu
      nlinarith
    linarith
  refine ⟨⟨⟨y1, y2, y3⟩, y4⟩, ⟨⟨r1, r2, r3⟩, r4, ?_, ?_, ?_⟩, ?_⟩
  · have hb : (a / l).norm = 1 := by
      have : a / l = a * (1 / l) := by ext <;> simp <;> ring
      rw [this, V3.norm_smul, abs_of_pos (by positivity), ← hl]
      field_simp
    have h1 := V3.norm_tri (⟨y1, y2, y3⟩ : V3 ℝ) (a / l) 0
    have h2 := V3.norm_tri (a / l) (⟨y1, y2, y3⟩ : V3 ℝ) 0
    rw [V3.norm_sub_comm (a / l) ⟨y1, y2, y3⟩] at h2
    have z : ∀ q : V3 ℝ, q - 0 = q := fun q => by ext <;> simp
    rw [z, z] at h1 h2
    show |(⟨y1, y2, y3⟩ : V3 ℝ).norm - 1| ≤ 8 * u
    rw [abs_le]
    constructor <;> linarith
  · have h1 := V3.norm_tri (⟨y1, y2, y3⟩ : V3 ℝ) (a / l) (n / L)
    show ((⟨y1, y2, y3⟩ : V3 ℝ) - n / L).norm ≤ 10 * u
    linarith
  · show |y4 + v.w / L| ≤ 10 * (u * (|v.w| / L)) + η / u
    rw [abs_neg] at d4
    have e : w.w / l - v.w / L = (w.w - v.w) / l - v.w / L * ((l - L) / l) := by field_simp; ring
    set W := |v.w| / L with hW
    have W0 : 0 ≤ W := by positivity
    have uW : u * W ≤ 1 / 4096 * W := mul_le_mul_of_nonneg_right hu' W0
    have uW0 : 0 ≤ u * W := by positivity
    have uuW : u * (u * W) ≤ 1 / 4096 * (u * W) := mul_le_mul_of_nonneg_right hu' uW0
    have ratio : L / l ≤ 1001 / 1000 := by
      rw [div_le_iff₀ lp]
      linarith
    have ratio0 : 0 ≤ L / l := by positivity
    have ηl : η / l ≤ 1 / 3 * (η / u) := by
      have : η / l ≤ η / (3 * u) := div_le_div_of_nonneg_left hη (by linarith) (by linarith)
      have e2 : η / (3 * u) = 1 / 3 * (η / u) := by field_simp
      linarith
    have ηu0 : 0 ≤ η / u := by positivity
    have k1 : |(w.w - v.w) / l| ≤ 1001 / 1000 * (u * W) + η / l := by
      rw [abs_div, abs_of_pos lp]
      have h1 : |w.w - v.w| / l ≤ (u * |v.w| + η) / l := div_le_div_of_nonneg_right hw lp.le
      have h2 : (u * |v.w| + η) / l = u * W * (L / l) + η / l := by rw [hW]; field_simp
      have h3 := mul_le_mul_of_nonneg_left ratio uW0
      linarith
    have k2 : |v.w / L * ((l - L) / l)| ≤ 102 / 100 * (u * W) := by
      rw [abs_mul, abs_div, abs_of_pos Lp, abs_div, abs_of_pos lp]
      have h1 : |l - L| / l ≤ 102 / 100 * u := by
        rw [div_le_iff₀ lp]
        have := mul_le_mul_of_nonneg_left (show L ≤ 1001 / 1000 * l by linarith) hu
        nlinarith
      have := mul_le_mul_of_nonneg_left h1 W0
      linarith
    have k3 : |w.w / l - v.w / L| ≤ 203 / 100 * (u * W) + η / l := by
      rw [e]
      have := abs_sub ((w.w - v.w) / l) (v.w / L * ((l - L) / l))
      linarith
    have k4 : |w.w| / l ≤ W + 203 / 100 * (u * W) + η / l := by
      have h1 := abs_add_le (w.w / l - v.w / L) (v.w / L)
      rw [sub_add_cancel, abs_div, abs_of_pos lp, abs_div v.w, abs_of_pos Lp] at h1
      linarith
    have k5 := mul_le_mul_of_nonneg_left k4 hu
    have k6 : η ≤ 1 / 4096 * (η / u) := by
      have : η = u * (η / u) := by field_simp
      calc η = u * (η / u) := this
        _ ≤ _ := mul_le_mul_of_nonneg_right hu' ηu0
    have k7 : u * (η / l) ≤ 1 / 4096 * (η / u) := by
      have : u * (η / l) ≤ u * (1 / 3 * (η / u)) := mul_le_mul_of_nonneg_left ηl hu
      have e3 : u * (1 / 3 * (η / u)) = 1 / 3 * η := by field_simp
      linarith
    have e4 : y4 + v.w / L = (y4 - -w.w / l) - (w.w / l - v.w / L) := by ring
    have k8 := abs_sub (y4 - -w.w / l) (w.w / l - v.w / L)
    rw [e4]
    linarith
  · unfold normalizeF
    rw [if_neg hnz]
    show some (PlaneF.mk (V3.mk (R.mul (toF R w.x) (R.div R.one (R.sqrt (mag2F R (toV3 R a))))) (R.mul (toF R w.y) (R.div R.one (R.sqrt (mag2F R (toV3 R a)))))
      (R.mul (toF R w.z) (R.div R.one (R.sqrt (mag2F R (toV3 R a)))))) (R.mul (negF R (toF R w.w)) (R.div R.one (R.sqrt (mag2F R (toV3 R a)))))) = _
    rw [et, rneg rw', e1, e2, e3, e4]
    rfl

theorem sum_err (h : MatStd R u η Ω N E) {x y : ℝ} (rx : Rep R x) (ry : Rep R y) (hx : |x| ≤ N) (hy : |y| ≤ N) :
    ∃ z, Rep R z ∧ R.add (numR R x) (numR R y) = numR R z ∧ |z - (x + y)| ≤ u * |x + y| + η ∧ |x + y| ≤ 2 * N := by
  have h1 := abs_add_le x y
  obtain ⟨z, rz, ez, dz⟩ := h.std.err (x + y) (by linarith [h.lin, h.N0])
  exact ⟨z, rz, (radd rx ry).trans ez, dz, by linarith⟩
theorem diff_err (h : MatStd R u η Ω N E) {x y : ℝ} (rx : Rep R x) (ry : Rep R y) (hx : |x| ≤ N) (hy : |y| ≤ N) :
    ∃ z, Rep R z ∧ R.sub (numR R x) (numR R y) = numR R z ∧ |z - (x - y)| ≤ u * |x - y| + η ∧ |x - y| ≤ 2 * N := by
  have h1 := abs_sub x y
  obtain ⟨z, rz, ez, dz⟩ := h.std.err (x - y) (by linarith [h.lin, h.N0])
  exact ⟨z, rz, (rsub rx ry).trans ez, dz, by linarith⟩

theorem plane_add (h : MatStd R u η Ω N E) {a b : V4 ℝ} (ha : RowIn R N a) (hb : RowIn R N b) (hL : 4 * u ≤ (V4.normal (a.add b)).norm) :
    ∃ P, Computed R u η (a.add b) P ∧ normalizeF R (numR R E) (altF R (addV4F R (rowR R a) (rowR R b))) = some (planeR R P) := by
  obtain ⟨⟨a1, a2, a3, a4⟩, s1, s2, s3, s4⟩ := ha
  obtain ⟨⟨b1, b2, b3, b4⟩, t1, t2, t3, t4⟩ := hb
  obtain ⟨x, rx, ex, dx, kx⟩ := sum_err h a1 b1 s1 t1
  obtain ⟨y, ry, ey, dy, ky⟩ := sum_err h a2 b2 s2 t2
  obtain ⟨z, rz, ez, dz, kz⟩ := sum_err h a3 b3 s3 t3
  obtain ⟨w, rw', ew, dw, kw⟩ := sum_err h a4 b4 s4 t4
  have e : addV4F R (rowR R a) (rowR R b) = rowR R ⟨x, y, z, w⟩ := by
    unfold addV4F rowR
    rw [ex, ey, ez, ew]
  rw [e]
  exact normalize_err (v := a.add b) (w := ⟨x, y, z, w⟩) h rx ry rz rw' dx dy dz dw kx ky kz kw hL
theorem plane_sub (h : MatStd R u η Ω N E) {a b : V4 ℝ} (ha : RowIn R N a) (hb : RowIn R N b) (hL : 4 * u ≤ (V4.normal (a.sub b)).norm) :
    ∃ P, Computed R u η (a.sub b) P ∧ normalizeF R (numR R E) (altF R (subV4F R (rowR R a) (rowR R b))) = some (planeR R P) := by
  obtain ⟨⟨a1, a2, a3, a4⟩, s1, s2, s3, s4⟩ := ha
  obtain ⟨⟨b1, b2, b3, b4⟩, t1, t2, t3, t4⟩ := hb
  obtain ⟨x, rx, ex, dx, kx⟩ := diff_err h a1 b1 s1 t1
  obtain ⟨y, ry, ey, dy, ky⟩ := diff_err h a2 b2 s2 t2
  obtain ⟨z, rz, ez, dz, kz⟩ := diff_err h a3 b3 s3 t3
  obtain ⟨w, rw', ew, dw, kw⟩ := diff_err h a4 b4 s4 t4
  have e : subV4F R (rowR R a) (rowR R b) = rowR R ⟨x, y, z, w⟩ := by
    unfold subV4F rowR
    rw [ex, ey, ez, ew]
  rw [e]
  exact normalize_err (v := a.sub b) (w := ⟨x, y, z, w⟩) h rx ry rz rw' dx dy dz dw kx ky kz kw hL

/-- **C125, the planes.** When none of the six forms of a matrix has a normal shorter than `4u`, `from_matrix4` returns six planes, one for each form in the order in which `contains` uses them, with normals of length 1 up to `8u` and
coefficients that are those of the exactly normalised form up to `10u`. -/
theorem c125_planes (h : MatStd R u η Ω N E) {m : M4 ℝ} (hm : MatIn R N m) (hL : ∀ v ∈ M4.forms m, 4 * u ≤ (V4.normal v).norm) :
    ∃ planes : List (Plane ℝ), fromMatrix4F R (numR R E) (matR R m) = some (planes.map (planeR R)) ∧ List.Forall₂ (Computed R u η) (M4.forms m) planes := by
  obtain ⟨h0, h1, h2, h3⟩ := hm
  simp only [M4.forms, List.mem_cons, List.not_mem_nil, or_false, forall_eq_or_imp, forall_eq] at hL
  obtain ⟨l1, l2, l3, l4, l5, l6⟩ := hL
  obtain ⟨P1, c1, e1⟩ := plane_add h h3 h0 l1
  obtain ⟨P2, c2, e2⟩ := plane_sub h h3 h0 l2
  obtain ⟨P3, c3, e3⟩ := plane_sub h h3 h1 l3
  obtain ⟨P4, c4, e4⟩ := plane_add h h3 h1 l4
  obtain ⟨P5, c5, e5⟩ := plane_add h h3 h2 l5
  obtain ⟨P6, c6, e6⟩ := plane_sub h h3 h2 l6
  refine ⟨[P1, P2, P3, P4, P5, P6], ?_, ?_⟩
  · unfold fromMatrix4F matR
    simp only [e1, e2, e3, e4, e5, e6]
    rfl
  · exact .cons c1 (.cons c2 (.cons c3 (.cons c4 (.cons c5 (.cons c6 .nil)))))

/-- The signed distances of a computed plane are those of the form, up to rounding. -/
theorem Computed.gap (hu : 0 ≤ u) {v : V4 ℝ} {P : Plane ℝ} (h : Computed R u η v P) (p : V3 ℝ) : |Plane.gap P p - V4.depth v p| ≤ 10 * (u * (p.norm + V4.far v)) + η / u := by
  have e : Plane.gap P p - V4.depth v p = (P.n - V4.normal v / (V4.normal v).norm).dot p - (P.d + v.w / (V4.normal v).norm) := by
    simp only [Plane.gap, V4.depth, V4.dot, V3.hom, V4.normal, V3.dot, V3.sub_x, V3.sub_y, V3.sub_z, V3.div_x, V3.div_y, V3.div_z]
    ring
  rw [e]
  have h1 := abs_sub ((P.n - V4.normal v / (V4.normal v).norm).dot p) (P.d + v.w / (V4.normal v).norm)
  have h2 : |(P.n - V4.normal v / (V4.normal v).norm).dot p| ≤ (P.n - V4.normal v / (V4.normal v).norm).norm * p.norm := by
    have := gap_diff (P := ⟨P.n - V4.normal v / (V4.normal v).norm, 0⟩) p 0
    rw [show p - 0 = p by ext <;> simp] at this
    refine le_trans (le_of_eq ?_) this
    simp [Plane.gap, V3.dot]
  have h3 := mul_le_mul_of_nonneg_right h.normal p.norm_nonneg
  have h4 := h.shift
  linarith
/-- The exact plane of `Frustum::from_matrix4` (C42) for a form has that signed distance. -/
theorem depth_exact {v : V4 ℝ} {P : Plane ℝ} (h : (Plane.fromVector4Alt v).normalize = some P) (p : V3 ℝ) : Plane.gap P p = V4.depth v p := by
  unfold Plane.normalize at h
  split at h
  · cases h
  · rename_i hn
    cases h
    simp only [Plane.gap, V4.depth, V4.dot, V3.hom, V4.normal, Plane.new, Plane.fromVector4Alt, V3.mul_x, V3.mul_y, V3.mul_z]
    ring

theorem near_of (h : MatStd R u η Ω N E) {x : ℝ} (hx : |x| ≤ E) : ∃ z, toF R x = toF R z ∧ toF R z ≤ toF R E ∧ negF R (toF R z) ≤ toF R E := by
  have hE1 : E ≤ Ω := by
    have : E ≤ 1 := by linarith [h.E1, h.u']
    linarith [h.sq, mul_self_nonneg N]
  have rE : Rep R (-E) := h.std.rep_neg (by rw [abs_of_nonneg h.E0]; exact hE1) h.repE
  obtain ⟨z, rz, ez, -⟩ := h.std.err x (hx.trans hE1)
  have h1 := fl_below rz h.repE ez (abs_le.1 hx).2
  have h2 := fl_ge rz rE ez (abs_le.1 hx).1
  have rz' : Rep R (-z) := h.std.rep_neg (by rw [abs_le]; constructor <;> linarith) rz
  refine ⟨z, ez, (toF_le rz h.repE).2 h1, ?_⟩
  rw [rneg rz]
  exact (toF_le rz' h.repE).2 (by linarith)
theorem near_add (h : MatStd R u η Ω N E) {a b : V4 ℝ} (ha : RowIn R N a) (hb : RowIn R N b) (hE : Sz3 E (V4.normal (a.add b))) : normalizeF R (numR R E) (altF R (addV4F R (rowR R a) (rowR R b))) = none := by
  have key : ∀ x y : ℝ, Rep R x → Rep R y → |x + y| ≤ E → R.add (numR R x) (numR R y) ≤ numR R E ∧ negF R (R.add (numR R x) (numR R y)) ≤ numR R E := by
    intro x y rx ry hxy
    obtain ⟨z, ez, h1⟩ := near_of h hxy
    rw [show R.add (numR R x) (numR R y) = toF R z from (radd rx ry).trans ez]
    exact h1
  unfold normalizeF
  rw [if_pos]
  exact ⟨key _ _ ha.1.1 hb.1.1 hE.1, key _ _ ha.1.2.1 hb.1.2.1 hE.2.1, key _ _ ha.1.2.2.1 hb.1.2.2.1 hE.2.2⟩
theorem near_sub (h : MatStd R u η Ω N E) {a b : V4 ℝ} (ha : RowIn R N a) (hb : RowIn R N b) (hE : Sz3 E (V4.normal (a.sub b))) : normalizeF R (numR R E) (altF R (subV4F R (rowR R a) (rowR R b))) = none := by
  have key : ∀ x y : ℝ, Rep R x → Rep R y → |x - y| ≤ E → R.sub (numR R x) (numR R y) ≤ numR R E ∧ negF R (R.sub (numR R x) (numR R y)) ≤ numR R E := by
    intro x y rx ry hxy
    obtain ⟨z, ez, h1⟩ := near_of h hxy
    rw [show R.sub (numR R x) (numR R y) = toF R z from (rsub rx ry).trans ez]
    exact h1
  unfold normalizeF
  rw [if_pos]
  exact ⟨key _ _ ha.1.1 hb.1.1 hE.1, key _ _ ha.1.2.1 hb.1.2.1 hE.2.1, key _ _ ha.1.2.2.1 hb.1.2.2.1 hE.2.2⟩
/-- **C125, no frustum.** When one of the six forms has a normal whose components are all at most the machine epsilon, `from_matrix4` returns nothing, and `relate_clip_space` says `Cross` of everything. -/
theorem c125_none (h : MatStd R u η Ω N E) {m : M4 ℝ} (hm : MatIn R N m) (hE : ∃ v ∈ M4.forms m, Sz3 E (V4.normal v)) :
    fromMatrix4F R (numR R E) (matR R m) = none ∧ ∀ relate, relateClipF R (numR R E) relate (matR R m) = .Cross := by
  have key : fromMatrix4F R (numR R E) (matR R m) = none := by
    obtain ⟨h0, h1, h2, h3⟩ := hm
    simp only [M4.forms, List.mem_cons, List.not_mem_nil, or_false, exists_eq_or_imp, exists_eq_left] at hE
    unfold fromMatrix4F matR
    dsimp only [Option.bind_eq_bind]
    rcases hE with q | q | q | q | q | q
    · rw [near_add h h3 h0 q]
      rfl
    · rw [near_sub h h3 h0 q]
      cases normalizeF R (numR R E) (altF R (addV4F R (rowR R m.r3) (rowR R m.r0))) <;> rfl
    · rw [near_sub h h3 h1 q]
      cases normalizeF R (numR R E) (altF R (addV4F R (rowR R m.r3) (rowR R m.r0))) <;> cases normalizeF R (numR R E) (altF R (subV4F R (rowR R m.r3) (rowR R m.r0))) <;>
        cases normalizeF R (numR R E) (altF R (addV4F R (rowR R m.r3) (rowR R m.r1))) <;> rfl
    · rw [near_add h h3 h1 q]
      cases normalizeF R (numR R E) (altF R (addV4F R (rowR R m.r3) (rowR R m.r0))) <;> cases normalizeF R (numR R E) (altF R (subV4F R (rowR R m.r3) (rowR R m.r0))) <;> rfl
    · rw [near_add h h3 h2 q]
      cases normalizeF R (numR R E) (altF R (addV4F R (rowR R m.r3) (rowR R m.r0))) <;> cases normalizeF R (numR R E) (altF R (subV4F R (rowR R m.r3) (rowR R m.r0))) <;>
        cases normalizeF R (numR R E) (altF R (addV4F R (rowR R m.r3) (rowR R m.r1))) <;> cases normalizeF R (numR R E) (altF R (subV4F R (rowR R m.r3) (rowR R m.r1))) <;> rfl
    · rw [near_sub h h3 h2 q]
      cases normalizeF R (numR R E) (altF R (addV4F R (rowR R m.r3) (rowR R m.r0))) <;> cases normalizeF R (numR R E) (altF R (subV4F R (rowR R m.r3) (rowR R m.r0))) <;>
        cases normalizeF R (numR R E) (altF R (addV4F R (rowR R m.r3) (rowR R m.r1))) <;> cases normalizeF R (numR R E) (altF R (subV4F R (rowR R m.r3) (rowR R m.r1))) <;>
        cases normalizeF R (numR R E) (altF R (addV4F R (rowR R m.r3) (rowR R m.r2))) <;> rfl
  refine ⟨key, fun relate => ?_⟩
  unfold relateClipF
  rw [key]

/-! ## Boxes -/
theorem norm_box {b : Aabb3 ℝ} (hb : FitsB R M b) {p : V3 ℝ} (hp : b.Mem p) : p.norm ≤ 2 * M := by
  obtain ⟨-, ⟨-, a1, a2, a3⟩, -, c1, c2, c3⟩ := hb
  have hM : 0 ≤ M := (abs_nonneg _).trans a1
  have between : ∀ {lo hi x : ℝ}, |lo| ≤ M → |hi| ≤ M → lo ≤ x → x ≤ hi → |x| ≤ M := by
    intro lo hi x h1 h2 h3 h4
    rw [abs_le] at *
    constructor <;> linarith
  obtain ⟨⟨m1, m2⟩, ⟨m3, m4⟩, m5, m6⟩ := hp
  have := norm_comp (a := p) (b := 0) (c := 0) (e := M) le_rfl hM (by linarith [between a1 c1 m1 m2]) (by linarith [between a2 c2 m3 m4]) (by linarith [between a3 c3 m5 m6])
  linarith

/-- The error of a classification of a box of size `M` by a matrix whose planes are at most `W` away from the origin. -/
def boxClipErr (u η M W : ℝ) : ℝ := 10 * (u * (4 * M + W)) + 2 * (η / u)

/-- **C125, boxes.** `relate_clip_space` of a box in rounded arithmetic: what it says is true of the exact clip volume of the matrix up to `10 u (4M + W)`, and it says so when it is true by more. -/
theorem c125_box (h : MatStd R u η Ω N E) {m : M4 ℝ} (hm : MatIn R N m) (hL : ∀ v ∈ M4.forms m, 4 * u ≤ (V4.normal v).norm) {W : ℝ} (hW : ∀ v ∈ M4.forms m, V4.far v ≤ W)
    (hΩ : 8 * M + 1 ≤ Ω) {b : Aabb3 ℝ} (hb : FitsB R M b) :
    ((relateClipF R (numR R E) (relateBoxF R (boxR3 R b)) (matR R m) = .Out → ∃ v ∈ M4.forms m, ∀ p, b.Mem p → V4.depth v p < boxClipErr u η M W) ∧
      (relateClipF R (numR R E) (relateBoxF R (boxR3 R b)) (matR R m) = .In → ∀ v ∈ M4.forms m, ∀ p, b.Mem p → -boxClipErr u η M W < V4.depth v p)) ∧
    (((∃ v ∈ M4.forms m, ∀ p, b.Mem p → V4.depth v p < -boxClipErr u η M W) → relateClipF R (numR R E) (relateBoxF R (boxR3 R b)) (matR R m) = .Out) ∧
      ((∀ v ∈ M4.forms m, ∀ p, b.Mem p → boxClipErr u η M W < V4.depth v p) → relateClipF R (numR R E) (relateBoxF R (boxR3 R b)) (matR R m) = .In)) := by
  obtain ⟨planes, e, hc⟩ := c125_planes h hm hL
  have hu := h.pos.le
  have e' : relateClipF R (numR R E) (relateBoxF R (boxR3 R b)) (matR R m) = frustumF R (planes.map (planeR R)) (boxR3 R b) := by
    unfold relateClipF
    rw [e]
    rfl
  have out : ∀ v ∈ M4.forms m, ∃ P ∈ planes, Computed R u η v P := fun v hv => by
    obtain ⟨i, hi, rfl⟩ := List.mem_iff_getElem.1 hv
    have hl := hc.length_eq
    exact ⟨planes[i]'(hl ▸ hi), List.getElem_mem _, hc.get hi (hl ▸ hi)⟩
  have back : ∀ P ∈ planes, ∃ v ∈ M4.forms m, Computed R u η v P := fun P hP => by
    obtain ⟨i, hi, rfl⟩ := List.mem_iff_getElem.1 hP
    have hl := hc.length_eq
    exact ⟨(M4.forms m)[i]'(hl ▸ hi), List.getElem_mem _, hc.get (hl ▸ hi) hi⟩
  have fits : ∀ P ∈ planes, FitsP R 2 P := fun P hP => by
    obtain ⟨v, -, c⟩ := back P hP
    have h1 := (abs_le.1 c.unit).2
    have h2 := comp_le_norm P.n
    have hu' := h.u'
    exact ⟨c.rn, ⟨h2.1.trans (by linarith), h2.2.1.trans (by linarith), h2.2.2.trans (by linarith)⟩, c.rd⟩
  have k := c109_frustum h.std (by linarith) fits hb
  have dif : ∀ v ∈ M4.forms m, ∀ P, Computed R u η v P → ∀ p, b.Mem p → |Plane.gap P p - V4.depth v p| + planeErr u η M 2 ≤ boxClipErr u η M W := by
    intro v hv P c p hp
    have h1 := c.gap hu p
    have h2 := mul_le_mul_of_nonneg_left (add_le_add (norm_box hb hp) (hW v hv)) hu
    have hη := h.std.η0
    have h3 : 6 * η ≤ η / u := by
      rw [le_div_iff₀ h.pos]
      have := mul_le_mul_of_nonneg_left h.u' hη
      linarith
    have hM : 0 ≤ u * M := mul_nonneg hu ((abs_nonneg _).trans hb.2.1.2.1)
    unfold boxClipErr planeErr
    linarith
  rw [e']
  refine ⟨⟨fun q => ?_, fun q v hv p hp => ?_⟩, fun q => k.2.1 ?_, fun q => k.2.2 fun P hP p hp => ?_⟩
  · obtain ⟨P, hP, hall⟩ := k.1.1 q
    obtain ⟨v, hv, c⟩ := back P hP
    refine ⟨v, hv, fun p hp => ?_⟩
    have h1 := dif v hv P c p hp
    have h2 := hall p hp
    have h3 := neg_abs_le (Plane.gap P p - V4.depth v p)
    linarith
  · obtain ⟨P, hP, c⟩ := out v hv
    have h1 := dif v hv P c p hp
    have h2 := k.1.2 q P hP p hp
    have h3 := le_abs_self (Plane.gap P p - V4.depth v p)
    linarith
  · obtain ⟨v, hv, hall⟩ := q
    obtain ⟨P, hP, c⟩ := out v hv
    refine ⟨P, hP, fun p hp => ?_⟩
    have h1 := dif v hv P c p hp
    have h2 := hall p hp
    have h3 := le_abs_self (Plane.gap P p - V4.depth v p)
    linarith
  · obtain ⟨v, hv, c⟩ := back P hP
    have h1 := dif v hv P c p hp
    have h2 := q v hv p hp
    have h3 := neg_abs_le (Plane.gap P p - V4.depth v p)
    linarith

/-! ## Trees of spheres -/
theorem planes_in (h : MatStd R u η Ω N E) (hM : 0 ≤ M) (hηM : η ≤ u * u * M) {v : V4 ℝ} (hf : V4.far v ≤ 3 / 2 * M) {P : Plane ℝ} (hc : Computed R u η v P) : PlaneIn R u M P where
  rn := hc.rn
  rd := hc.rd
  unit := hc.unit
  near := by
    have hu := h.pos.le
    have h1 := hc.shift
    have h2 : η / u ≤ u * M := by
      rw [div_le_iff₀ h.pos]
      linarith
    have h3 := mul_le_mul_of_nonneg_left hf hu
    have h4 : u * M ≤ 1 / 4096 * M := mul_le_mul_of_nonneg_right h.u' hM
    have h5 : |v.w / (V4.normal v).norm| = V4.far v := by
      unfold V4.far
      rw [abs_div, abs_of_nonneg (V3.norm_nonneg _)]
    have h6 := abs_sub (P.d + v.w / (V4.normal v).norm) (v.w / (V4.normal v).norm)
    rw [add_sub_cancel_right, h5] at h6
    linarith

/-- Size of the points of a sphere. -/
theorem norm_sphere {s : RSphere} (hs : InS M M s) {p : V3 ℝ} (hp : s.Mem p) : p.norm ≤ 3 * M := by
  have hM := hs.1.nonneg
  have h1 := norm_comp (a := s.center) (b := 0) (c := 0) (e := M) le_rfl hM (by linarith [hs.1.1]) (by linarith [hs.1.2.1]) (by linarith [hs.1.2.2])
  have h2 := V3.norm_tri p s.center 0
  have z : ∀ q : V3 ℝ, q - 0 = q := fun q => by ext <;> simp
  rw [z, z] at h2
  have h3 : (p - s.center).norm ≤ s.radius := hp
  linarith [hs.2.2]

/-- The error in the depth of a point of a scene of size `M`. -/
theorem depth_err (h : MatStd R u η Ω N E) (hηM : η ≤ u * u * M) {v : V4 ℝ} (hf : V4.far v ≤ 3 / 2 * M) {P : Plane ℝ} (hc : Computed R u η v P) {s : RSphere} (hs : InS M M s) {p : V3 ℝ} (hp : s.Mem p) :
    |Plane.gap P p - V4.depth v p| ≤ 46 * (u * M) := by
  have hu := h.pos.le
  have h1 := hc.gap hu p
  have h2 := mul_le_mul_of_nonneg_left (add_le_add (norm_sphere hs hp) hf) hu
  have h3 : η / u ≤ u * M := by
    rw [div_le_iff₀ h.pos]
    linarith
  linarith

section tree
variable {V S : Type} {bs : V → RSphere} {ms : V → V3 ℝ} {area : SphereF F → S} {lt : S → S → Bool} {sub div : S → S → S} {im : S}

/-- **C125, culling trees of spheres by a matrix, nothing visible is lost but by rounding.** The planes are those `from_matrix4` computes; a value whose sphere has a point at depth at least `2600 n² u M` with respect to all six exact
planes is returned. -/
theorem c125_found (hb : ∀ v, RpS R (bs v)) (hm : ∀ v, Rep3 R (ms v) ∧ 0 ≤ top3 (ms v)) {h : Hist V} {s : Dbvt V (SphereF F)}
    (he : Exec (ballTreeOps R (fun v => toS R (bs v)) (fun v => toV3 R (ms v)) area lt sub div im) h s)
    (hd : Disciplined (ballTreeOps R (fun v => toS R (bs v)) (fun v => toV3 R (ms v)) area lt sub div im) h)
    (hu : UpToDate (ballTreeOps R (fun v => toS R (bs v)) (fun v => toV3 R (ms v)) area lt sub div im) h) (hr : Refitted! h) {n : ℕ} (hh : s.height = .ok n) (hn : n ≤ 256)
    (hT : TreeStd R u η Ω (5 * n * M)) (hΩ : 2 ≤ Ω) (hsmall : 1500 * (n * n * u) ≤ 1) (hM : ∀ v, Given h v → InS M M (bs v) ∧ top3 (ms v) ≤ M / 2)
    (hS : MatStd R u η Ω N E) (hηM : η ≤ u * u * M) {m : M4 ℝ} (hm4 : MatIn R N m) (hL : ∀ v ∈ M4.forms m, 4 * u ≤ (V4.normal v).norm) (hW : ∀ v ∈ M4.forms m, V4.far v ≤ 3 / 2 * M)
    {e : Nat × V} (hv : e ∈ s.values) {p : V3 ℝ} (hp : (bs e.2).Mem p) (hin : ∀ v ∈ M4.forms m, 2600 * (n * n * u * M) ≤ V4.depth v p) :
    ∃ fs, fromMatrix4F R (numR R E) (matR R m) = some fs ∧
      ∃ l r, s.query (ballTreeOps R (fun v => toS R (bs v)) (fun v => toV3 R (ms v)) area lt sub div im) (pureVisitor fun b _ => cullF R fs b) () = .ok l ∧ (e.2, r) ∈ l := by
  obtain ⟨planes, e4, hc⟩ := c125_planes hS hm4 hL
  have hgiven : Given h e.2 := Dbvt.mapOf_given (i := e.1) ((Dbvt.exec_inv _ he).mem.1 hv)
  have hZ := (hM _ hgiven).1
  have hM0 : 0 ≤ M := hZ.1.nonneg
  have hnpos : 1 ≤ (n : ℝ) := by
    have h1 := hT.N0
    rcases Nat.eq_zero_or_pos n with h0 | h0
    · rw [h0] at h1
      simp at h1
    · exact_mod_cast h0
  have huM : u * M ≤ n * n * u * M := by
    have h1 : (1 : ℝ) * 1 ≤ n * n := mul_le_mul hnpos hnpos zero_le_one (by linarith)
    have := mul_le_mul_of_nonneg_right h1 (mul_nonneg hS.pos.le hM0)
    linarith
  have back : ∀ P ∈ planes, ∃ v ∈ M4.forms m, Computed R u η v P := fun P hP => by
    obtain ⟨i, hi, rfl⟩ := List.mem_iff_getElem.1 hP
    have hl := hc.length_eq
    exact ⟨(M4.forms m)[i]'(hl ▸ hi), List.getElem_mem _, hc.get (hl ▸ hi) hi⟩
  refine ⟨_, e4, c123_found hb hm he hd hu hr hh hn hT hΩ hsmall hM (planes := planes) (fun P hP => ?_) hv hp fun P hP => ?_⟩
  · obtain ⟨v, hv', c⟩ := back P hP
    exact planes_in hS hM0 hηM (hW v hv') c
  · obtain ⟨v, hv', c⟩ := back P hP
    have h1 := (abs_le.1 (depth_err hS hηM (hW v hv') c hZ hp)).1
    have h2 := hin v hv'
    have h3 : 0 ≤ u * M := mul_nonneg hS.pos.le hM0
    linarith

/-- **C125, culling trees of spheres by a matrix, the relations that are reported.** -/
theorem c125_reported (hb : ∀ v, RpS R (bs v)) {h : Hist V} {s : Dbvt V (SphereF F)}
    (he : Exec (ballTreeOps R (fun v => toS R (bs v)) (fun v => toV3 R (ms v)) area lt sub div im) h s) (hT : TreeStd R u η Ω M) (hΩ : 2 ≤ Ω) (hM : ∀ v, Given h v → InS M M (bs v))
    (hS : MatStd R u η Ω N E) (hηM : η ≤ u * u * M) {m : M4 ℝ} (hm4 : MatIn R N m) (hL : ∀ v ∈ M4.forms m, 4 * u ≤ (V4.normal v).norm) (hW : ∀ v ∈ M4.forms m, V4.far v ≤ 3 / 2 * M)
    {fs : List (PlaneF F)} (hfs : fromMatrix4F R (numR R E) (matR R m) = some fs) {l : List (Nat × Relation)}
    (hl : s.queryForIndices (ballTreeOps R (fun v => toS R (bs v)) (fun v => toV3 R (ms v)) area lt sub div im) (pureVisitor fun b _ => cullF R fs b) () = .ok l) :
    (l.map Prod.fst).Nodup ∧ ∀ k r, (k, r) ∈ l → ∃ e : Nat × V, s.values[k]? = some e ∧ r ≠ .Out ∧
      (∀ v ∈ M4.forms m, ∃ p, (bs e.2).Mem p ∧ -(130 * (u * M)) ≤ V4.depth v p) ∧ (r = .In → ∀ v ∈ M4.forms m, ∀ p, (bs e.2).Mem p → -(130 * (u * M)) ≤ V4.depth v p) ∧
      ((∀ v ∈ M4.forms m, ∀ p, (bs e.2).Mem p → 130 * (u * M) < V4.depth v p) → r = .In) := by
  obtain ⟨planes, e4, hc⟩ := c125_planes hS hm4 hL
  rw [hfs] at e4
  obtain rfl := Option.some.inj e4
  have hM0 := hT.N0.le
  have h0 : 0 ≤ u * M := mul_nonneg hS.pos.le hM0
  have out : ∀ v ∈ M4.forms m, ∃ P ∈ planes, Computed R u η v P := fun v hv => by
    obtain ⟨i, hi, rfl⟩ := List.mem_iff_getElem.1 hv
    have hl := hc.length_eq
    exact ⟨planes[i]'(hl ▸ hi), List.getElem_mem _, hc.get hi (hl ▸ hi)⟩
  have back : ∀ P ∈ planes, ∃ v ∈ M4.forms m, Computed R u η v P := fun P hP => by
    obtain ⟨i, hi, rfl⟩ := List.mem_iff_getElem.1 hP
    have hl := hc.length_eq
    exact ⟨(M4.forms m)[i]'(hl ▸ hi), List.getElem_mem _, hc.get (hl ▸ hi) hi⟩
  obtain ⟨q1, q2⟩ := c123_reported hb he hT hΩ hM (planes := planes) (fun P hP => by
    obtain ⟨v, hv', c⟩ := back P hP
    exact planes_in hS hM0 hηM (hW v hv') c) hl
  refine ⟨q1, fun k r hk => ?_⟩
  obtain ⟨e, h1, h2, h3, h4, h5⟩ := q2 k r hk
  have hgiven : Given h e.2 := Dbvt.mapOf_given (i := e.1) ((Dbvt.exec_inv _ he).mem.1 (List.mem_of_getElem? h1))
  have hZ := hM _ hgiven
  refine ⟨e, h1, h2, fun v hv => ?_, fun hr v hv p hp => ?_, fun hall => h5 fun P hP p hp => ?_⟩
  · obtain ⟨P, hP, c⟩ := out v hv
    obtain ⟨p, hp, hg⟩ := h3 P hP
    have := abs_le.1 (depth_err hS hηM (hW v hv) c hZ hp)
    exact ⟨p, hp, by linarith⟩
  · obtain ⟨P, hP, c⟩ := out v hv
    have h6 := h4 hr P hP p hp
    have := abs_le.1 (depth_err hS hηM (hW v hv) c hZ hp)
    linarith
  · obtain ⟨v, hv, c⟩ := back P hP
    have h6 := hall v hv p hp
    have := abs_le.1 (depth_err hS hηM (hW v hv) c hZ hp)
    linarith
end tree

/-! ## The formats -/
/-- The machine epsilon of `f64` and of `f32`. -/
def eps64 : ℝ := (2 : ℝ) ^ (-52 : ℤ)
def eps32 : ℝ := (2 : ℝ) ^ (-23 : ℤ)
theorem mat64 {N : ℝ} (h0 : 0 ≤ N) (h1 : N ≤ (2 : ℝ) ^ (400 : ℤ)) : MatStd binary64 ((2 : ℝ) ^ (-53 : ℤ)) ((2 : ℝ) ^ (-1075 : ℤ)) ((2 : ℝ) ^ (1022 : ℤ)) N eps64 := by
  have p8 : (8 : ℝ) = (2 : ℝ) ^ (3 : ℤ) := by norm_num
  have p512 : (512 : ℝ) = (2 : ℝ) ^ (9 : ℤ) := by norm_num
  have p64 : (64 : ℝ) = (2 : ℝ) ^ (6 : ℤ) := by norm_num
  have one : (1 : ℝ) ≤ (2 : ℝ) ^ (400 : ℤ) := by
    have := zpow2_le (show (0 : ℤ) ≤ 400 by norm_num)
    rwa [zpow_zero] at this
  have mul : ∀ a b : ℤ, (2 : ℝ) ^ a * (2 : ℝ) ^ b = (2 : ℝ) ^ (a + b) := fun a b => (zpow_add₀ (by norm_num) a b).symm
  refine ⟨std64, by norm_num, h0, ?_, ?_, ?_, ?_, ?_, zpow2_pos _, ?_, (zpow2_pos _).le, ?_⟩
  · rw [p64, mul, mul, mul]
    exact zpow2_le (by norm_num)
  · have := mul_le_mul_of_nonneg_right h1 (zpow2_pos (-1075)).le
    rw [mul] at this
    refine (mul_le_mul_of_nonneg_left this (by norm_num)).trans ?_
    rw [p512, mul]
    exact zpow2_le (by norm_num)
  · rw [mul]
    have : 4 * N + 4 ≤ 8 * (2 : ℝ) ^ (400 : ℤ) := by
      generalize (2 : ℝ) ^ (400 : ℤ) = Q at *
      linarith
    refine this.trans ?_
    rw [p8, mul]
    exact zpow2_le (by norm_num)
  · have h2 : N * N ≤ (2 : ℝ) ^ (400 : ℤ) * (2 : ℝ) ^ (400 : ℤ) := mul_le_mul h1 h1 h0 (zpow2_pos _).le
    have h3 : (1 : ℝ) * 1 ≤ (2 : ℝ) ^ (400 : ℤ) * (2 : ℝ) ^ (400 : ℤ) := mul_le_mul one one (by norm_num) (zpow2_pos _).le
    have : 256 * (N * N) + 256 ≤ 512 * ((2 : ℝ) ^ (400 : ℤ) * (2 : ℝ) ^ (400 : ℤ)) := by
      generalize (2 : ℝ) ^ (400 : ℤ) = Q at *
      linarith
    refine this.trans ?_
    rw [p512, mul, mul]
    exact zpow2_le (by norm_num)
  · have : 16 * N ≤ 512 * (2 : ℝ) ^ (400 : ℤ) := by
      generalize (2 : ℝ) ^ (400 : ℤ) = Q at *
      linarith
    refine this.trans ?_
    rw [p512, mul]
    exact zpow2_le (by norm_num)
  · refine rep_of_rep64 ⟨1, -52, by norm_num, by norm_num, by norm_num, ?_⟩
    simp [eps64]
  · refine le_of_eq ?_
    unfold eps64
    norm_num
theorem mat32 {N : ℝ} (h0 : 0 ≤ N) (h1 : N ≤ (2 : ℝ) ^ (50 : ℤ)) : MatStd binary32 ((2 : ℝ) ^ (-24 : ℤ)) ((2 : ℝ) ^ (-150 : ℤ)) ((2 : ℝ) ^ (126 : ℤ)) N eps32 := by
  have h2 : N * N ≤ (2 : ℝ) ^ (50 : ℤ) * (2 : ℝ) ^ (50 : ℤ) := mul_le_mul h1 h1 h0 (zpow2_pos _).le
  norm_num at h1 h2
  refine ⟨std32, by norm_num, h0, by norm_num, ?_, ?_, ?_, ?_, zpow2_pos _, ?_, (zpow2_pos _).le, ?_⟩
  · norm_num
    linarith
  · norm_num
    linarith
  · norm_num
    linarith
  · norm_num
    linarith
  · refine rep_of_rep32 ⟨1, -23, by norm_num, by norm_num, by norm_num, ?_⟩
    simp [eps32]
  · refine le_of_eq ?_
    unfold eps32
    norm_num

/-- What a relation says of a box and the clip volume of a matrix, up to `e`: `Out` that the box is outside one of the six planes, `In` that it is inside all of them; and it is said when it is true by more than `e`. -/
def ClipRel (rel : Relation) (m : M4 ℝ) (b : Aabb3 ℝ) (e : ℝ) : Prop :=
  ((rel = .Out → ∃ v ∈ M4.forms m, ∀ p, b.Mem p → V4.depth v p < e) ∧ (rel = .In → ∀ v ∈ M4.forms m, ∀ p, b.Mem p → -e < V4.depth v p)) ∧
  (((∃ v ∈ M4.forms m, ∀ p, b.Mem p → V4.depth v p < -e) → rel = .Out) ∧ ((∀ v ∈ M4.forms m, ∀ p, b.Mem p → e < V4.depth v p) → rel = .In))
theorem ClipRel.mono {rel : Relation} {m : M4 ℝ} {b : Aabb3 ℝ} {e e' : ℝ} (he : e ≤ e') (h : ClipRel rel m b e) : ClipRel rel m b e' := by
  obtain ⟨⟨h1, h2⟩, h3, h4⟩ := h
  refine ⟨⟨fun q => ?_, fun q v hv p hp => by have := h2 q v hv p hp; linarith⟩, fun q => h3 ?_, fun q => h4 fun v hv p hp => by have := q v hv p hp; linarith⟩
  · obtain ⟨v, hv, hall⟩ := h1 q
    exact ⟨v, hv, fun p hp => (hall p hp).trans_le he⟩
  · obtain ⟨v, hv, hall⟩ := q
    exact ⟨v, hv, fun p hp => by have := hall p hp; linarith⟩

/-- **C125 in `f64`, boxes**: `relate_clip_space` is right up to `10 u (5M + W)`, for matrices with entries up to `2^400`, boxes of sizes from `2^-400` to `2^400` and planes at most `W` away from the origin. -/
theorem c125_f64_box {N : ℝ} (h0 : 0 ≤ N) (h1 : N ≤ (2 : ℝ) ^ (400 : ℤ)) {m : M4 ℝ} (hm : MatIn binary64 N m) (hL : ∀ v ∈ M4.forms m, 2 * eps64 ≤ (V4.normal v).norm)
    {W M : ℝ} (hW : ∀ v ∈ M4.forms m, V4.far v ≤ W) (hlo : (2 : ℝ) ^ (-400 : ℤ) ≤ M) (hhi : M ≤ (2 : ℝ) ^ (400 : ℤ)) {b : Aabb3 ℝ} (hb : FitsB binary64 M b) :
    ClipRel (relateClipF binary64 (numR binary64 eps64) (relateBoxF binary64 (boxR3 binary64 b)) (matR binary64 m)) m b (10 * ((2 : ℝ) ^ (-53 : ℤ) * (5 * M + W))) := by
  have hΩ : 8 * M + 1 ≤ (2 : ℝ) ^ (1022 : ℤ) := by
    have one : (1 : ℝ) ≤ (2 : ℝ) ^ (400 : ℤ) := by
      have := zpow2_le (show (0 : ℤ) ≤ 400 by norm_num)
      rwa [zpow_zero] at this
    have h2 : 8 * M + 1 ≤ 16 * (2 : ℝ) ^ (400 : ℤ) := by
      generalize (2 : ℝ) ^ (400 : ℤ) = Q at *
      linarith
    refine h2.trans ?_
    rw [show (16 : ℝ) = (2 : ℝ) ^ (4 : ℤ) by norm_num, ← zpow_add₀ (by norm_num)]
    exact zpow2_le (by norm_num)
  have hE : 4 * (2 : ℝ) ^ (-53 : ℤ) = 2 * eps64 := by
    unfold eps64
    norm_num
  refine ClipRel.mono ?_ (c125_box (mat64 h0 h1) hm (fun v hv => hE ▸ hL v hv) hW hΩ hb)
  unfold boxClipErr
  have h2 : 2 * ((2 : ℝ) ^ (-1075 : ℤ) / (2 : ℝ) ^ (-53 : ℤ)) ≤ (2 : ℝ) ^ (-53 : ℤ) * M := by
    rw [← zpow_sub₀ (by norm_num)]
    have h3 := mul_le_mul_of_nonneg_left hlo (zpow2_pos (-53)).le
    refine le_trans ?_ h3
    rw [← zpow_add₀ (by norm_num)]
    have : (2 : ℝ) * (2 : ℝ) ^ (-1075 - -53 : ℤ) = (2 : ℝ) ^ (1 + (-1075 - -53) : ℤ) := by rw [zpow_add₀ (by norm_num), zpow_one]
    rw [this]
    exact zpow2_le (by norm_num)
  have hM : 0 ≤ (2 : ℝ) ^ (-53 : ℤ) * M := mul_nonneg (zpow2_pos _).le ((zpow2_pos _).le.trans hlo)
  generalize (2 : ℝ) ^ (-53 : ℤ) = Q at *
  linarith
/-- **C125 in `f32`, boxes**, for matrices with entries up to `2^50` and boxes of sizes from `2^-36` to `2^100`. -/
theorem c125_f32_box {N : ℝ} (h0 : 0 ≤ N) (h1 : N ≤ (2 : ℝ) ^ (50 : ℤ)) {m : M4 ℝ} (hm : MatIn binary32 N m) (hL : ∀ v ∈ M4.forms m, 2 * eps32 ≤ (V4.normal v).norm)
    {W M : ℝ} (hW : ∀ v ∈ M4.forms m, V4.far v ≤ W) (hlo : (2 : ℝ) ^ (-36 : ℤ) ≤ M) (hhi : M ≤ (2 : ℝ) ^ (100 : ℤ)) {b : Aabb3 ℝ} (hb : FitsB binary32 M b) :
    ClipRel (relateClipF binary32 (numR binary32 eps32) (relateBoxF binary32 (boxR3 binary32 b)) (matR binary32 m)) m b (10 * ((2 : ℝ) ^ (-24 : ℤ) * (5 * M + W))) := by
  have hE : 4 * (2 : ℝ) ^ (-24 : ℤ) = 2 * eps32 := by
    unfold eps32
    norm_num
  refine ClipRel.mono ?_ (c125_box (mat32 h0 h1) hm (fun v hv => hE ▸ hL v hv) hW (by norm_num at hhi ⊢; linarith) hb)
  unfold boxClipErr
  norm_num at hlo ⊢
  linarith

section formats
variable {V S : Type} {bs : V → RSphere} {ms : V → V3 ℝ} {lt : S → S → Bool} {sub div : S → S → S} {im : S}
/-- **C125 in `f64`, trees of spheres.** -/
theorem c125_f64_found {area : SphereF F64 → S} (hb : ∀ v, RpS binary64 (bs v)) (hm : ∀ v, Rep3 binary64 (ms v) ∧ 0 ≤ top3 (ms v)) {h : Hist V} {s : Dbvt V (SphereF F64)}
    (he : Exec (ballTreeOps binary64 (fun v => toS binary64 (bs v)) (fun v => toV3 binary64 (ms v)) area lt sub div im) h s)
    (hd : Disciplined (ballTreeOps binary64 (fun v => toS binary64 (bs v)) (fun v => toV3 binary64 (ms v)) area lt sub div im) h)
    (hu : UpToDate (ballTreeOps binary64 (fun v => toS binary64 (bs v)) (fun v => toV3 binary64 (ms v)) area lt sub div im) h) (hr : Refitted! h) {n : ℕ} (hh : s.height = .ok n) (hn : n ≤ 256)
    {M : ℝ} (hlo : (2 : ℝ) ^ (-400 : ℤ) ≤ M) (hhi : M ≤ (2 : ℝ) ^ (400 : ℤ)) (hM : ∀ v, Given h v → InS M M (bs v) ∧ top3 (ms v) ≤ M / 2)
    {N : ℝ} (h0 : 0 ≤ N) (h1 : N ≤ (2 : ℝ) ^ (400 : ℤ)) {m : M4 ℝ} (hm4 : MatIn binary64 N m) (hL : ∀ v ∈ M4.forms m, 2 * eps64 ≤ (V4.normal v).norm) (hW : ∀ v ∈ M4.forms m, V4.far v ≤ 3 / 2 * M)
    {e : Nat × V} (hv : e ∈ s.values) {p : V3 ℝ} (hp : (bs e.2).Mem p) (hin : ∀ v ∈ M4.forms m, 2600 * (n * n * (2 : ℝ) ^ (-53 : ℤ) * M) ≤ V4.depth v p) :
    ∃ fs, fromMatrix4F binary64 (numR binary64 eps64) (matR binary64 m) = some fs ∧
      ∃ l r, s.query (ballTreeOps binary64 (fun v => toS binary64 (bs v)) (fun v => toV3 binary64 (ms v)) area lt sub div im) (pureVisitor fun b _ => cullF binary64 fs b) () = .ok l ∧ (e.2, r) ∈ l := by
  obtain ⟨t1, t2⟩ := tree_size (height_ne_zero he hr hh hv) (by omega) hlo hhi
  have hE : 4 * (2 : ℝ) ^ (-53 : ℤ) = 2 * eps64 := by
    unfold eps64
    norm_num
  refine c125_found hb hm he hd hu hr hh (by omega) (tree64 t1 (t2.trans (zpow2_le (by norm_num)))) two_le64 ?_ hM (mat64 h0 h1) ?_ hm4 (fun v hv => hE ▸ hL v hv) hW hv hp hin
  · have h1 : ((n : ℝ) * n) ≤ 256 * 256 := by
      have : (n : ℝ) ≤ 256 := by exact_mod_cast hn
      exact mul_le_mul this this (Nat.cast_nonneg n) (by norm_num)
    have h2 := mul_le_mul_of_nonneg_right h1 (zpow2_pos (-53)).le
    have h3 : (2 : ℝ) ^ (-53 : ℤ) = 1 / 9007199254740992 := by norm_num
    rw [h3] at h2 ⊢
    linarith
  · refine le_trans ?_ (mul_le_mul_of_nonneg_left hlo (mul_nonneg (zpow2_pos _).le (zpow2_pos _).le))
    rw [← zpow_add₀ (by norm_num), ← zpow_add₀ (by norm_num)]
    exact zpow2_le (by norm_num)
/-- **C125 in `f64`, trees of spheres**, what is reported. -/
theorem c125_f64_reported {area : SphereF F64 → S} (hb : ∀ v, RpS binary64 (bs v)) {h : Hist V} {s : Dbvt V (SphereF F64)}
    (he : Exec (ballTreeOps binary64 (fun v => toS binary64 (bs v)) (fun v => toV3 binary64 (ms v)) area lt sub div im) h s) {M : ℝ} (hlo : (2 : ℝ) ^ (-400 : ℤ) ≤ M) (hhi : M ≤ (2 : ℝ) ^ (400 : ℤ))
    (hM : ∀ v, Given h v → InS M M (bs v))
    {N : ℝ} (h0 : 0 ≤ N) (h1 : N ≤ (2 : ℝ) ^ (400 : ℤ)) {m : M4 ℝ} (hm4 : MatIn binary64 N m) (hL : ∀ v ∈ M4.forms m, 2 * eps64 ≤ (V4.normal v).norm) (hW : ∀ v ∈ M4.forms m, V4.far v ≤ 3 / 2 * M)
    {fs : List (PlaneF F64)} (hfs : fromMatrix4F binary64 (numR binary64 eps64) (matR binary64 m) = some fs) {l : List (Nat × Relation)}
    (hl : s.queryForIndices (ballTreeOps binary64 (fun v => toS binary64 (bs v)) (fun v => toV3 binary64 (ms v)) area lt sub div im) (pureVisitor fun b _ => cullF binary64 fs b) () = .ok l) :
    (l.map Prod.fst).Nodup ∧ ∀ k r, (k, r) ∈ l → ∃ e : Nat × V, s.values[k]? = some e ∧ r ≠ .Out ∧
      (∀ v ∈ M4.forms m, ∃ p, (bs e.2).Mem p ∧ -(130 * ((2 : ℝ) ^ (-53 : ℤ) * M)) ≤ V4.depth v p) ∧ (r = .In → ∀ v ∈ M4.forms m, ∀ p, (bs e.2).Mem p → -(130 * ((2 : ℝ) ^ (-53 : ℤ) * M)) ≤ V4.depth v p) ∧
      ((∀ v ∈ M4.forms m, ∀ p, (bs e.2).Mem p → 130 * ((2 : ℝ) ^ (-53 : ℤ) * M) < V4.depth v p) → r = .In) := by
  have hE : 4 * (2 : ℝ) ^ (-53 : ℤ) = 2 * eps64 := by
    unfold eps64
    norm_num
  refine c125_reported hb he (tree64 hlo (hhi.trans (zpow2_le (by norm_num)))) two_le64 hM (mat64 h0 h1) ?_ hm4 (fun v hv => hE ▸ hL v hv) hW hfs hl
  refine le_trans ?_ (mul_le_mul_of_nonneg_left hlo (mul_nonneg (zpow2_pos _).le (zpow2_pos _).le))
  rw [← zpow_add₀ (by norm_num), ← zpow_add₀ (by norm_num)]
  exact zpow2_le (by norm_num)
/-- **C125 in `f32`, trees of spheres.** -/
theorem c125_f32_found {area : SphereF F32 → S} (hb : ∀ v, RpS binary32 (bs v)) (hm : ∀ v, Rep3 binary32 (ms v) ∧ 0 ≤ top3 (ms v)) {h : Hist V} {s : Dbvt V (SphereF F32)}
    (he : Exec (ballTreeOps binary32 (fun v => toS binary32 (bs v)) (fun v => toV3 binary32 (ms v)) area lt sub div im) h s)
    (hd : Disciplined (ballTreeOps binary32 (fun v => toS binary32 (bs v)) (fun v => toV3 binary32 (ms v)) area lt sub div im) h)
    (hu : UpToDate (ballTreeOps binary32 (fun v => toS binary32 (bs v)) (fun v => toV3 binary32 (ms v)) area lt sub div im) h) (hr : Refitted! h) {n : ℕ} (hh : s.height = .ok n) (hn : n ≤ 100)
    {M : ℝ} (hlo : (2 : ℝ) ^ (-36 : ℤ) ≤ M) (hhi : M ≤ (2 : ℝ) ^ (40 : ℤ)) (hM : ∀ v, Given h v → InS M M (bs v) ∧ top3 (ms v) ≤ M / 2)
    {N : ℝ} (h0 : 0 ≤ N) (h1 : N ≤ (2 : ℝ) ^ (50 : ℤ)) {m : M4 ℝ} (hm4 : MatIn binary32 N m) (hL : ∀ v ∈ M4.forms m, 2 * eps32 ≤ (V4.normal v).norm) (hW : ∀ v ∈ M4.forms m, V4.far v ≤ 3 / 2 * M)
    {e : Nat × V} (hv : e ∈ s.values) {p : V3 ℝ} (hp : (bs e.2).Mem p) (hin : ∀ v ∈ M4.forms m, 2600 * (n * n * (2 : ℝ) ^ (-24 : ℤ) * M) ≤ V4.depth v p) :
    ∃ fs, fromMatrix4F binary32 (numR binary32 eps32) (matR binary32 m) = some fs ∧
      ∃ l r, s.query (ballTreeOps binary32 (fun v => toS binary32 (bs v)) (fun v => toV3 binary32 (ms v)) area lt sub div im) (pureVisitor fun b _ => cullF binary32 fs b) () = .ok l ∧ (e.2, r) ∈ l := by
  obtain ⟨t1, t2⟩ := tree_size (height_ne_zero he hr hh hv) (by omega) hlo hhi
  have hE : 4 * (2 : ℝ) ^ (-24 : ℤ) = 2 * eps32 := by
    unfold eps32
    norm_num
  refine c125_found hb hm he hd hu hr hh (by omega) (tree32 t1 (t2.trans (zpow2_le (by norm_num)))) (by norm_num) ?_ hM (mat32 h0 h1) ?_ hm4 (fun v hv => hE ▸ hL v hv) hW hv hp hin
  · have h1 : ((n : ℝ) * n) ≤ 100 * 100 := by
      have : (n : ℝ) ≤ 100 := by exact_mod_cast hn
      exact mul_le_mul this this (Nat.cast_nonneg n) (by norm_num)
    have h2 := mul_le_mul_of_nonneg_right h1 (zpow2_pos (-24)).le
    have h3 : (2 : ℝ) ^ (-24 : ℤ) = 1 / 16777216 := by norm_num
    rw [h3] at h2 ⊢
    linarith
  · refine le_trans ?_ (mul_le_mul_of_nonneg_left hlo (mul_nonneg (zpow2_pos _).le (zpow2_pos _).le))
    norm_num
/-- **C125 in `f32`, trees of spheres**, what is reported. -/
theorem c125_f32_reported {area : SphereF F32 → S} (hb : ∀ v, RpS binary32 (bs v)) {h : Hist V} {s : Dbvt V (SphereF F32)}
    (he : Exec (ballTreeOps binary32 (fun v => toS binary32 (bs v)) (fun v => toV3 binary32 (ms v)) area lt sub div im) h s) {M : ℝ} (hlo : (2 : ℝ) ^ (-36 : ℤ) ≤ M) (hhi : M ≤ (2 : ℝ) ^ (40 : ℤ))
    (hM : ∀ v, Given h v → InS M M (bs v))
    {N : ℝ} (h0 : 0 ≤ N) (h1 : N ≤ (2 : ℝ) ^ (50 : ℤ)) {m : M4 ℝ} (hm4 : MatIn binary32 N m) (hL : ∀ v ∈ M4.forms m, 2 * eps32 ≤ (V4.normal v).norm) (hW : ∀ v ∈ M4.forms m, V4.far v ≤ 3 / 2 * M)
    {fs : List (PlaneF F32)} (hfs : fromMatrix4F binary32 (numR binary32 eps32) (matR binary32 m) = some fs) {l : List (Nat × Relation)}
    (hl : s.queryForIndices (ballTreeOps binary32 (fun v => toS binary32 (bs v)) (fun v => toV3 binary32 (ms v)) area lt sub div im) (pureVisitor fun b _ => cullF binary32 fs b) () = .ok l) :
    (l.map Prod.fst).Nodup ∧ ∀ k r, (k, r) ∈ l → ∃ e : Nat × V, s.values[k]? = some e ∧ r ≠ .Out ∧
      (∀ v ∈ M4.forms m, ∃ p, (bs e.2).Mem p ∧ -(130 * ((2 : ℝ) ^ (-24 : ℤ) * M)) ≤ V4.depth v p) ∧ (r = .In → ∀ v ∈ M4.forms m, ∀ p, (bs e.2).Mem p → -(130 * ((2 : ℝ) ^ (-24 : ℤ) * M)) ≤ V4.depth v p) ∧
      ((∀ v ∈ M4.forms m, ∀ p, (bs e.2).Mem p → 130 * ((2 : ℝ) ^ (-24 : ℤ) * M) < V4.depth v p) → r = .In) := by
  have hE : 4 * (2 : ℝ) ^ (-24 : ℤ) = 2 * eps32 := by
    unfold eps32
    norm_num
  refine c125_reported hb he (tree32 hlo (hhi.trans (zpow2_le (by norm_num)))) (by norm_num) hM (mat32 h0 h1) ?_ hm4 (fun v hv => hE ▸ hL v hv) hW hfs hl
  refine le_trans ?_ (mul_le_mul_of_nonneg_left hlo (mul_nonneg (zpow2_pos _).le (zpow2_pos _).le))
  norm_num
end formats

/-! ## Their hypotheses; scaling the matrix -/
/-- An orthographic projection of the cube from -8 to 8, times `k`. -/
def orthoCube (k : ℝ) : M4 ℝ := ⟨⟨k / 8, 0, 0, 0⟩, ⟨0, k / 8, 0, 0⟩, ⟨0, 0, k / 8, 0⟩, ⟨0, 0, 0, k⟩⟩
theorem orthoCube_in {k N : ℝ} (h0 : 0 ≤ k) (hN : k ≤ N) (r : Rep R k) (r8 : Rep R (k / 8)) : MatIn R N (orthoCube k) := by
  have z := rep_zero (R := R)
  have hN0 : 0 ≤ N := by linarith
  have h8 : |k / 8| ≤ N := by rw [abs_of_nonneg (by linarith)]; linarith
  have hk : |k| ≤ N := by rw [abs_of_nonneg h0]; exact hN
  have hz : |(0 : ℝ)| ≤ N := by simpa using hN0
  exact ⟨⟨⟨r8, z, z, z⟩, h8, hz, hz, hz⟩, ⟨⟨z, r8, z, z⟩, hz, h8, hz, hz⟩, ⟨⟨z, z, r8, z⟩, hz, hz, h8, hz⟩, ⟨⟨z, z, z, r⟩, hz, hz, hz, hk⟩⟩
/-- The forms of that matrix. -/
theorem orthoCube_forms {k : ℝ} (hk : 0 < k) : ∀ v ∈ M4.forms (orthoCube k), (V4.normal v).norm = k / 8 ∧ Sz3 (k / 8) (V4.normal v) ∧ V4.far v = 8 ∧
    (∀ p : V3 ℝ, |p.x| ≤ 2 ∧ |p.y| ≤ 2 ∧ |p.z| ≤ 2 → 6 ≤ V4.depth v p) := by
  have n : ∀ {x y z : ℝ}, x * x + y * y + z * z = k / 8 * (k / 8) → V3.norm ⟨x, y, z⟩ = k / 8 := by
    intro x y z h
    simp only [V3.norm, V3.dot]
    rw [h, Real.sqrt_mul_self (by linarith)]
  intro v hv
  have hN : (V4.normal v).norm = k / 8 := by
    simp only [M4.forms, List.mem_cons, List.not_mem_nil, or_false] at hv
    rcases hv with rfl | rfl | rfl | rfl | rfl | rfl <;> exact n (by simp [orthoCube, V4.add, V4.sub])
  refine ⟨hN, hN ▸ comp_le_norm _, ?_, fun p ⟨h1, h2, h3⟩ => ?_⟩
  · unfold V4.far
    rw [hN]
    simp only [M4.forms, List.mem_cons, List.not_mem_nil, or_false] at hv
    have hk0 := hk.ne'
    rcases hv with rfl | rfl | rfl | rfl | rfl | rfl <;> simp [orthoCube, V4.add, V4.sub, abs_of_pos hk] <;> field_simp
  · unfold V4.depth
    rw [hN, le_div_iff₀ (by linarith)]
    rw [abs_le] at h1 h2 h3
    simp only [M4.forms, List.mem_cons, List.not_mem_nil, or_false] at hv
    rcases hv with rfl | rfl | rfl | rfl | rfl | rfl <;> simp only [orthoCube, V4.add, V4.sub, V4.dot, V3.hom] <;> nlinarith
/-- The cube from 1 to 2. -/
def smallCube : Aabb3 ℝ := ⟨⟨1, 1, 1⟩, ⟨2, 2, 2⟩⟩
theorem smallCube_mem {p : V3 ℝ} (hp : smallCube.Mem p) : |p.x| ≤ 2 ∧ |p.y| ≤ 2 ∧ |p.z| ≤ 2 := by
  obtain ⟨⟨a, b⟩, ⟨c, d⟩, e, f⟩ := hp
  simp only [smallCube] at *
  refine ⟨?_, ?_, ?_⟩ <;> rw [abs_le] <;> constructor <;> linarith
/-- **C125: scaling a matrix.** `k` times a projection matrix describes the same clip volume for every positive `k`. Of the cube from 1 to 2 and the orthographic projection of the cube from -8 to 8 `relate_clip_space` says `In` in `f32`;
of the same projection times the machine epsilon it says `Cross`, and no frustum can be made of it. -/
theorem c125_false : relateClipF binary32 (numR binary32 eps32) (relateBoxF binary32 (boxR3 binary32 smallCube)) (matR binary32 (orthoCube 1)) = .In ∧
    relateClipF binary32 (numR binary32 eps32) (relateBoxF binary32 (boxR3 binary32 smallCube)) (matR binary32 (orthoCube eps32)) = .Cross ∧
    fromMatrix4F binary32 (numR binary32 eps32) (matR binary32 (orthoCube eps32)) = none ∧
    ∀ p, smallCube.Mem p → ∀ v ∈ M4.forms (orthoCube eps32), 6 ≤ V4.depth v p := by
  have e0 : 0 < eps32 := zpow2_pos _
  have r1 : Rep binary32 (1 : ℝ) := rep_one
  have r2 : Rep binary32 (2 : ℝ) := by simpa using rep32_int 2 (by norm_num)
  have r18 : Rep binary32 ((1 : ℝ) / 8) := rep_of_rep32 ⟨1, -3, by norm_num, by norm_num, by norm_num, by norm_num⟩
  have re8 : Rep binary32 (eps32 / 8) := rep_of_rep32 ⟨1, -26, by norm_num, by norm_num, by norm_num, by norm_num [eps32]⟩
  have he : eps32 = 1 / 8388608 := by norm_num [eps32]
  have hb : FitsB binary32 2 smallCube := ⟨⟨by norm_num [smallCube], by norm_num [smallCube], by norm_num [smallCube]⟩, ⟨⟨r1, r1, r1⟩, by norm_num [Sz3, smallCube]⟩, ⟨r2, r2, r2⟩, by norm_num [Sz3, smallCube]⟩
  have hf := orthoCube_forms (k := 1) one_pos
  have q := c125_f32_box (N := 1) (W := 8) (M := 2) (by norm_num) (by norm_num) (orthoCube_in (N := 1) zero_le_one le_rfl r1 r18) (fun v hv => by rw [(hf v hv).1, he]; norm_num)
    (fun v hv => (hf v hv).2.2.1.le) (by norm_num) (by norm_num) hb
  have hS := mat32 (N := 1) (by norm_num) (by norm_num)
  obtain ⟨n1, n2⟩ := c125_none hS (orthoCube_in (N := 1) e0.le (by rw [he]; norm_num) hS.repE re8)
    ⟨_, List.mem_cons_self .., by
      have := (orthoCube_forms e0 _ (List.mem_cons_self ..)).2.1
      exact ⟨this.1.trans (by linarith), this.2.1.trans (by linarith), this.2.2.trans (by linarith)⟩⟩
  refine ⟨q.2.2 fun v hv p hp => ?_, n2 _, n1, fun p hp v hv => (orthoCube_forms e0 v hv).2.2.2 p (smallCube_mem hp)⟩
  have := (hf v hv).2.2.2 p (smallCube_mem hp)
  norm_num
  linarith
/-- A reachable tree of two spheres of radius 1 in `f32`, at 0 and at 10: culled by the orthographic projection of the cube from -8 to 8 it returns the first and not the second. -/
example {S : Type} (area : SphereF F32 → S) (lt : S → S → Bool) (sub div : S → S → S) (im : S) :
    ∃ h s fs, Exec (ballTreeOps binary32 (fun v => toS binary32 (twoBalls v)) (fun _ => toV3 binary32 0) area lt sub div im) h s ∧ fromMatrix4F binary32 (numR binary32 eps32) (matR binary32 (orthoCube 1)) = some fs ∧
      (∃ r, s.query (ballTreeOps binary32 (fun v => toS binary32 (twoBalls v)) (fun _ => toV3 binary32 0) area lt sub div im) (pureVisitor fun b _ => cullF binary32 fs b) () = .ok r ∧ false ∈ r.map Prod.fst) ∧
      ∃ l, s.queryForIndices (ballTreeOps binary32 (fun v => toS binary32 (twoBalls v)) (fun _ => toV3 binary32 0) area lt sub div im) (pureVisitor fun b _ => cullF binary32 fs b) () = .ok l ∧
        ∀ k r, (k, r) ∈ l → ∃ i, s.values[k]? = some (i, false) := by
  obtain ⟨h, hr⟩ := Dbvt.twoTree_run (ballTreeOps binary32 (fun v => toS binary32 (twoBalls v)) (fun _ => toV3 binary32 0) area lt sub div im) false true (fun _ => 0)
  obtain ⟨he, hd, hu, hf⟩ := Dbvt.run_inserts hr
  have h3 : (2 : ℝ) ^ (-24 : ℤ) = 1 / 16777216 := by norm_num
  have hf1 := orthoCube_forms (k := 1) one_pos
  have r18 : Rep binary32 ((1 : ℝ) / 8) := rep_of_rep32 ⟨1, -3, by norm_num, by norm_num, by norm_num, by norm_num⟩
  have hL : ∀ v ∈ M4.forms (orthoCube 1), 2 * eps32 ≤ (V4.normal v).norm := fun v hv => by
    rw [(hf1 v hv).1]
    norm_num [eps32]
  have hW : ∀ v ∈ M4.forms (orthoCube 1), V4.far v ≤ 3 / 2 * 10 := fun v hv => by
    rw [(hf1 v hv).2.2.1]
    norm_num
  obtain ⟨fs, q0, l, r, q1, q2⟩ := c125_f32_found (bs := twoBalls) (ms := fun _ => 0) (n := 2) (M := 10) (N := 1) (e := (1, false)) twoBalls_rep (fun _ => ⟨⟨rep_zero, rep_zero, rep_zero⟩, by simp [top3]⟩) he hd hu hf rfl (by norm_num)
    (by norm_num) (by norm_num) (fun v _ => ⟨twoBalls_size v, by norm_num [top3]⟩) (by norm_num) (by norm_num) (orthoCube_in zero_le_one le_rfl rep_one r18) hL hW (by simp [Dbvt.twoTree]) (p := ⟨0, 0, 0⟩)
    (by simp [RSphere.Mem, twoBalls, V3.norm, V3.dot]) (fun v hv => by
      have := (hf1 v hv).2.2.2 ⟨0, 0, 0⟩ (by norm_num)
      rw [h3]
      norm_num
      linarith)
  obtain ⟨⟨l', q3⟩, -⟩ := Dbvt.c11_small_tree_partial _ he (by simp [Dbvt.twoTree]) (pureVisitor fun b _ => cullF binary32 fs b) ()
  refine ⟨h, _, fs, he, q0, ⟨l, q1, List.mem_map.2 ⟨_, q2, rfl⟩⟩, l', q3, fun k r hk => ?_⟩
  obtain ⟨-, q4⟩ := c125_f32_reported (ms := fun _ => 0) (N := 1) twoBalls_rep he (M := 10) (by norm_num) (by norm_num) (fun v _ => twoBalls_size v) (by norm_num) (by norm_num)
    (orthoCube_in zero_le_one le_rfl rep_one r18) hL hW q0 q3
  obtain ⟨⟨i, b⟩, q5, -, q6, -⟩ := q4 k r hk
  cases b
  · exact ⟨i, q5⟩
  exfalso
  have hmem : (orthoCube 1).r3.sub (orthoCube 1).r0 ∈ M4.forms (orthoCube 1) := by simp [M4.forms]
  obtain ⟨p, hp, hg⟩ := q6 _ hmem
  have c : |p.x - 10| ≤ 1 := ((comp_le_norm (p - (twoBalls true).center)).1).trans hp
  unfold V4.depth at hg
  rw [(hf1 _ hmem).1, h3, le_div_iff₀ (by norm_num)] at hg
  simp only [orthoCube, V4.sub, V4.dot, V3.hom] at hg
  rw [abs_le] at c
  norm_num at hg
  linarith
end
end Verif.Scene
