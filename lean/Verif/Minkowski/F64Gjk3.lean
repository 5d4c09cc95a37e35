import Verif.Minkowski.F64Gjk
import Verif.Minkowski.Epa3Point
/-!
# GJK in rounded arithmetic on grid coordinates, 3D (C105)

As `F64Gjk`, for 3D. One constant of the code is not a number of `f64`: the `0.1` that replaces a zero direction. The code searches along the axis with the nearest number; the products with it are rounded,
but their order is that of the exact products, and the length of the direction has no effect.
-/
namespace Verif.Minkowski
open Verif Geom Primitive
open Verif.Dbvt (Rounding F64 binary64 Rep64)
set_option linter.unusedSectionVars false

/-! ## The code over any arithmetic -/
section generic
variable {K : Type} [Add K] [Sub K] [Mul K] [Div K] [Neg K] [Zero K] [One K] [LinearOrder K]

/-- `ulps_eq!(v, Vector3::zero())`: every component is at most `eps` in absolute value -/
def NearG3 (eps : K) (v : V3 K) : Prop := (v.x ≤ eps ∧ -v.x ≤ eps) ∧ (v.y ≤ eps ∧ -v.y ≤ eps) ∧ (v.z ≤ eps ∧ -v.z ≤ eps)
instance (eps : K) (v : V3 K) : Decidable (NearG3 eps v) := by unfold NearG3; infer_instance

/-- `cross_aba`, `src/algorithm/minkowski/gjk/simplex/simplex3d.rs:172-177` -/
def crossAbaG (a b : V3 K) : V3 K := (a.cross b).cross a

/-- `check_side`, `src/algorithm/minkowski/gjk/simplex/simplex3d.rs:180-220` -/
def checkSideG (abc ab ac ao : V3 K) (s0 s1 s2 : SP (V3 K)) (above ignoreAb : Bool) : List (SP (V3 K)) × V3 K :=
  let abPerp := ab.cross abc
  if !ignoreAb ∧ abPerp.dot ao > 0 then ([s1, s2], crossAbaG ab ao)
  else
    let acPerp := abc.cross ac
    if acPerp.dot ao > 0 then ([s0, s2], crossAbaG ac ao)
    else if above ∨ abc.dot ao > 0 then ([s0, s1, s2], abc)
    else ([s1, s0, s2], -abc)

/-- `SimplexProcessor3::reduce_to_closest_feature`, `src/algorithm/minkowski/gjk/simplex/simplex3d.rs:24-98`; `tenth` is the constant `0.1` (93) -/
def reduceG3 (eps tenth : K) (simplex : List (SP (V3 K))) (v : V3 K) : Bool × List (SP (V3 K)) × V3 K :=
  match simplex with
  | [s0, s1, s2, s3] =>
    let a := s3.v
    let b := s2.v
    let c := s1.v
    let d := s0.v
    let ao := -a
    let ab := b - a
    let ac := c - a
    let abc := ab.cross ac
    if abc.dot ao > 0 then
      let r := checkSideG abc ab ac ao s1 s2 s3 true false
      (false, r.1, r.2)
    else
      let ad := d - a
      let acd := ac.cross ad
      if acd.dot ao > 0 then
        let r := checkSideG acd ac ad ao s0 s1 s3 true true
        (false, r.1, r.2)
      else
        let adb := ad.cross ab
        if adb.dot ao > 0 then (false, [s2, s0, s3], adb) else (true, [s0, s1, s2, s3], v)
  | [s0, s1, s2] =>
    let a := s2.v
    let b := s1.v
    let c := s0.v
    let ao := -a
    let ab := b - a
    let ac := c - a
    let r := checkSideG (ab.cross ac) ab ac ao s0 s1 s2 false false
    (false, r.1, r.2)
  | [s0, s1] =>
    let a := s1.v
    let b := s0.v
    let ao := -a
    let ab := b - a
    let v := crossAbaG ab ao
    let v : V3 K := if NearG3 eps v then ⟨tenth, v.y, v.z⟩ else v
    (false, [s0, s1], v)
  | _ => (false, simplex, v)

/-- The first direction, `src/algorithm/minkowski/gjk/mod.rs:117-122` -/
def firstDirectionG3 (eps : K) (leftPos rightPos : V3 K) : V3 K :=
  let d := rightPos - leftPos
  if NearG3 eps d then ⟨1, 1, 1⟩ else d

/-- `GJK3::intersect`, `src/algorithm/minkowski/gjk/mod.rs:101-146` -/
def gjkRunG3 (eps tenth : K) (maxIterations : Nat) (left right : V3 K → Res (V3 K)) (leftPos rightPos : V3 K) : Res (Out (V3 K)) := do
  let d := firstDirectionG3 eps leftPos rightPos
  let a ← SP.fromMinkowski left right d
  if Inner.dot a.v d ≤ 0 then return .miss
  else gjkLoop (reduceG3 eps tenth) left right maxIterations [a] (-d)

/-- the `Option` that `GJK3::intersect` returns, `src/algorithm/minkowski/gjk/mod.rs:101-146` -/
def gjkIntersectG3 (eps tenth : K) (maxIterations : Nat) (left right : V3 K → Res (V3 K)) (leftPos rightPos : V3 K) : Res (Option (List (SP (V3 K)))) := do
  let o ← gjkRunG3 eps tenth maxIterations left right leftPos rightPos
  return o.toOption

/-- One step of the fold of `get_max_point`, `src/primitive/util.rs:21-27`; `none` is the initial `neg_infinity` -/
def maxStepG3 (e : V3 K) (acc : V3 K × Option K) (v : V3 K) : V3 K × Option K :=
  match acc.2 with
  | none => (v, some (v.dot e))
  | some m => if v.dot e > m then (v, some (v.dot e)) else acc
/-- `get_max_point` in the local frame, `src/primitive/util.rs:19-28`, and `brute_force_support_point`, `src/primitive/polyhedron.rs:160-176` -/
def maxPointG3 (vs : List (V3 K)) (e : V3 K) : V3 K := (vs.foldl (maxStepG3 e) (0, none)).1

/-- The rotation of a `Basis3` applied to a vector (matrix times vector, by columns) -/
def applyG3 (m : M3 K) (v : V3 K) : V3 K := m.c0 * v.x + m.c1 * v.y + m.c2 * v.z
/-- The inverse rotation: the transpose -/
def transposeG3 (m : M3 K) : M3 K := ⟨⟨m.c0.x, m.c1.x, m.c2.x⟩, ⟨m.c0.y, m.c1.y, m.c2.y⟩, ⟨m.c0.z, m.c1.z, m.c2.z⟩⟩
/-- `Decomposed::transform_point` -/
def pointG3 (D : Dec3 K) (p : V3 K) : V3 K := applyG3 D.rot (p * D.scale) + D.disp
/-- `Decomposed::inverse_transform_vector` -/
def invVectorG3 (D : Dec3 K) (v : V3 K) : Option (V3 K) := if D.scale = 0 then none else some (applyG3 (transposeG3 D.rot) (v / D.scale))

/-- The 3D primitives with finitely many corners; a polyhedron is one made without faces -/
inductive Box3 (K : Type) where
  | particle
  | quad (dimX dimY : K)
  | cuboid (dimX dimY dimZ : K)
  | cube (dim : K)
  | polyhedron (vertices : List (V3 K))

/-- `generate_corners` of the halved dimensions, `src/primitive/quad.rs:36-43, 55-62` -/
def quadCornersG (dim : V2 K) : List (V3 K) :=
  let h := dim / (1 + 1 : K)
  [⟨h.x, h.y, 0⟩, ⟨-h.x, h.y, 0⟩, ⟨-h.x, -h.y, 0⟩, ⟨h.x, -h.y, 0⟩]
/-- `generate_corners` of the halved dimensions, `src/primitive/cuboid.rs:35-42, 54-65` -/
def boxCornersG (dim : V3 K) : List (V3 K) :=
  let h := dim / (1 + 1 : K)
  [⟨h.x, h.y, h.z⟩, ⟨-h.x, h.y, h.z⟩, ⟨-h.x, -h.y, h.z⟩, ⟨h.x, -h.y, h.z⟩,
   ⟨h.x, h.y, -h.z⟩, ⟨-h.x, h.y, -h.z⟩, ⟨-h.x, -h.y, -h.z⟩, ⟨h.x, -h.y, -h.z⟩]

/-- The corners -/
def Box3.vertsG : Box3 K → List (V3 K)
  | .particle => [0]
  | .quad w h => quadCornersG ⟨w, h⟩
  | .cuboid w h l => boxCornersG ⟨w, h, l⟩
  | .cube w => boxCornersG ⟨w, w, w⟩
  | .polyhedron vs => vs

/-- `Primitive3::support_point`, `src/primitive/primitive3.rs:160-176`; a particle does not look at the direction -/
def Box3.supportG (s : Box3 K) (D : Dec3 K) (d : V3 K) : Res (V3 K) :=
  match s with
  | .particle => .ok (pointG3 D 0)
  | s => do
    let e ← Res.ofOption (invVectorG3 D d)
    return pointG3 D (maxPointG3 s.vertsG e)
end generic

/-! ## Over a field this is the model of the other files -/
section field
variable {K : Type} [Field K] [LinearOrder K] [IsStrictOrderedRing K]

theorem nearG3_field (eps : K) (v : V3 K) : NearG3 eps v ↔ Near3 eps v := by
  unfold NearG3 Near3
  rw [abs_le', abs_le', abs_le']
theorem reduceG3_field (eps : K) : reduceG3 eps (1 / 10) = reduce3T eps := by
  funext s d
  match s with
  | [] => rfl
  | [_] => rfl
  | [s0, s1] =>
    unfold reduceG3 reduce3T
    dsimp only
    simp only [nearG3_field]
    rfl
  | [_, _, _] => rfl
  | [_, _, _, _] => rfl
  | _ :: _ :: _ :: _ :: _ :: _ => rfl
/-- Over a field the run is the model with tolerance. -/
theorem gjkRunG3_field (eps : K) (n : Nat) (left right : V3 K → Res (V3 K)) (lp rp : V3 K) : gjkRunG3 eps (1 / 10) n left right lp rp = gjkRun3T eps n left right lp rp := by
  unfold gjkRunG3 gjkRun3T firstDirectionG3 firstDirection3T
  simp only [nearG3_field, reduceG3_field]

/-! ## The length of a direction has no effect -/

/-- The answer is the same for all positive multiples of a direction. -/
def Homogeneous3 (left : V3 K → Res (V3 K)) : Prop := ∀ (d : V3 K) (t : K), 0 < t → left (d * t) = left d

theorem V3.mul_one' (v : V3 K) : v * (1 : K) = v := by
  ext <;> simp

theorem reduceG3_dir {c c' : K} (hc : 0 < c) (hc' : 0 < c') (s : List (SP (V3 K))) (d : V3 K) {t : K} (ht : 0 < t) :
    (reduceG3 0 c' s (d * t)).1 = (reduceG3 0 c s d).1 ∧ (reduceG3 0 c' s (d * t)).2.1 = (reduceG3 0 c s d).2.1 ∧
      ∃ u : K, 0 < u ∧ (reduceG3 0 c' s (d * t)).2.2 = (reduceG3 0 c s d).2.2 * u := by
  have same : ∀ v : V3 K, ∃ u : K, 0 < u ∧ v = v * u := fun v => ⟨1, one_pos, (V3.mul_one' v).symm⟩
  match s with
  | [] => exact ⟨rfl, rfl, t, ht, rfl⟩
  | [_] => exact ⟨rfl, rfl, t, ht, rfl⟩
  | [s0, s1] =>
    refine ⟨rfl, rfl, ?_⟩
    unfold reduceG3
    dsimp only
    split
    · rename_i h
      rw [nearG3_field, near3_zero] at h
      rw [h]
      refine ⟨c' / c, by positivity, ?_⟩
      ext <;> simp
      field_simp
    · exact same _
  | [s0, s1, s2] => exact ⟨rfl, rfl, same _⟩
  | [s0, s1, s2, s3] =>
    unfold reduceG3
    dsimp only
    split
    · exact ⟨rfl, rfl, same _⟩
    · split
      · exact ⟨rfl, rfl, same _⟩
      · split
        · exact ⟨rfl, rfl, same _⟩
        · exact ⟨rfl, rfl, t, ht, rfl⟩
  | _ :: _ :: _ :: _ :: _ :: _ => exact ⟨rfl, rfl, t, ht, rfl⟩

theorem neg_smul3 (d : V3 K) (t : K) : -(d * t) = (-d) * t := by
  ext <;> simp

/-- With support functions that look at the direction only up to its length, the constant `0.1` of the code may be any positive number. -/
theorem gjkLoop_tenth {left right : V3 K → Res (V3 K)} (hl : Homogeneous3 left) (hr : Homogeneous3 right) {c c' : K} (hc : 0 < c) (hc' : 0 < c') :
    ∀ n s d (t : K), 0 < t → gjkLoop (reduceG3 0 c') left right n s (d * t) = gjkLoop (reduceG3 0 c) left right n s d
  | 0, _, _, _, _ => rfl
  | n + 1, s, d, t, ht => by
    have hm : SP.fromMinkowski left right (d * t) = SP.fromMinkowski left right d := by
      unfold SP.fromMinkowski
      rw [neg_smul3, hl d t ht, hr (-d) t ht]
    unfold gjkLoop
    rw [hm]
    cases SP.fromMinkowski left right d with
    | panic => rfl
    | timeout => rfl
    | ok a =>
      show (if a.v.dot (d * t) ≤ 0 then _ else _) = (if a.v.dot d ≤ 0 then _ else _)
      have e : a.v.dot (d * t) = a.v.dot d * t := by simp [V3.dot]; ring
      have ec : a.v.dot (d * t) ≤ 0 ↔ a.v.dot d ≤ 0 := by
        rw [e]
        constructor
        · intro h; by_contra hcon; exact absurd (mul_pos (not_le.1 hcon) ht) (not_lt.2 h)
        · intro h; exact mul_nonpos_of_nonpos_of_nonneg h ht.le
      rw [if_congr ec rfl rfl]
      split
      · rfl
      · obtain ⟨h1, h2, u, hu, h3⟩ := reduceG3_dir hc hc' (s ++ [a]) d ht
        rw [h1, h2, h3, gjkLoop_tenth hl hr hc hc' n _ _ u hu]

theorem gjkRun_tenth {left right : V3 K → Res (V3 K)} (hl : Homogeneous3 left) (hr : Homogeneous3 right) {c : K} (hc : 0 < c) (n : Nat) (lp rp : V3 K) :
    gjkRunG3 0 c n left right lp rp = gjkRun reduce3 n left right lp rp := by
  rw [← c104_zero_3d, ← gjkRunG3_field]
  unfold gjkRunG3
  dsimp only
  have := fun s d => gjkLoop_tenth hl hr (c := 1 / 10) (c' := c) (by norm_num) hc n s d 1 one_pos
  simp only [V3.mul_one'] at this
  simp only [this]

theorem maxPoint3_homogeneous (vs : List (V3 K)) (e : V3 K) {t : K} (ht : 0 < t) : maxPointG3 vs (e * t) = maxPointG3 vs e := by
  unfold maxPointG3
  suffices h : ∀ (vs : List (V3 K)) (p : V3 K) (m : Option K), vs.foldl (maxStepG3 (e * t)) (p, m.map (· * t)) = ((vs.foldl (maxStepG3 e) (p, m)).1, (vs.foldl (maxStepG3 e) (p, m)).2.map (· * t)) by
    have := h vs 0 none
    rw [show (Option.map (· * t) (none : Option K)) = none from rfl] at this
    rw [this]
  intro vs
  induction vs with
  | nil => intros; rfl
  | cons v vs ih =>
    intro p m
    have ed : v.dot (e * t) = v.dot e * t := by simp [V3.dot]; ring
    rw [List.foldl_cons, List.foldl_cons]
    cases m with
    | none =>
      show List.foldl _ (v, some (v.dot (e * t))) vs = _
      rw [ed]
      exact ih v (some (v.dot e))
    | some x =>
      show List.foldl _ (if v.dot (e * t) > x * t then (v, some (v.dot (e * t))) else (p, some (x * t))) vs = _
      rw [ed]
      by_cases hc : v.dot e > x
      · rw [if_pos (mul_lt_mul_of_pos_right hc ht), show maxStepG3 e (p, some x) v = (v, some (v.dot e)) from if_pos hc]
        exact ih v (some (v.dot e))
      · rw [if_neg (fun h => hc (lt_of_mul_lt_mul_right h ht.le)), show maxStepG3 e (p, some x) v = (p, some x) from if_neg hc]
        exact ih p (some x)

theorem box_homogeneous (s : Box3 K) (D : Dec3 K) : Homogeneous3 (s.supportG D) := by
  intro d t ht
  by_cases hs : D.scale = 0
  · cases s <;> simp [Box3.supportG, invVectorG3, hs]
  · have e : applyG3 (transposeG3 D.rot) (d * t / D.scale) = applyG3 (transposeG3 D.rot) (d / D.scale) * t := by
      ext <;> simp [applyG3] <;> ring
    cases s <;> simp [Box3.supportG, invVectorG3, hs, e, maxPoint3_homogeneous _ _ ht]
end field

/-- The primitive of the other files. -/
noncomputable def Box3.prim : Box3 ℝ → Prim3
  | .particle => .particle
  | .quad w h => .quad (Quad.new w h)
  | .cuboid w h l => .cuboid (Cuboid.new w h l)
  | .cube w => .cube (Cube.new w)
  | .polyhedron vs => .polyhedron (Polyhedron.new vs)

/-- Over the reals the support functions are those of the primitives. -/
theorem Box3.supportG_real (s : Box3 ℝ) (nz : V3 ℝ → Bool) (D : Dec3 ℝ) (d : V3 ℝ) : s.supportG D d = s.prim.supportPoint nz D.tr d := by
  cases s <;> rfl

noncomputable section
open Classical
section rounded
variable {F : Type} [LinearOrder F] {R : Rounding F} {g eps : ℝ} {k l : ℕ} {B C : ℤ}

variable (R) in
/-- The vector of the nearest numbers. -/
def toV3 (v : V3 ℝ) : V3 (Fl R) := ⟨toF R v.x, toF R v.y, toF R v.z⟩
/-- All components are multiples. -/
def Units3 (g : ℝ) (k : ℕ) (B : ℤ) (v : V3 ℝ) : Prop := Units g k B v.x ∧ Units g k B v.y ∧ Units g k B v.z
variable (R) in
/-- All components are representable. -/
def Rep3 (v : V3 ℝ) : Prop := Rep R v.x ∧ Rep R v.y ∧ Rep R v.z

variable {a b c : V3 ℝ}
theorem Units3.add (ha : Units3 g k B a) (hb : Units3 g k C b) : Units3 g k (B + C) (a + b) := ⟨ha.1.add hb.1, ha.2.1.add hb.2.1, ha.2.2.add hb.2.2⟩
theorem Units3.sub (ha : Units3 g k B a) (hb : Units3 g k C b) : Units3 g k (B + C) (a - b) := ⟨ha.1.sub hb.1, ha.2.1.sub hb.2.1, ha.2.2.sub hb.2.2⟩
theorem Units3.neg (ha : Units3 g k B a) : Units3 g k B (-a) := ⟨ha.1.neg, ha.2.1.neg, ha.2.2.neg⟩
theorem Units3.mono (ha : Units3 g k B a) (h : B ≤ C) : Units3 g k C a := ⟨ha.1.mono h, ha.2.1.mono h, ha.2.2.mono h⟩
theorem Units3.dot (ha : Units3 g k B a) (hb : Units3 g l C b) : Units g (k + l) (3 * (B * C)) (a.dot b) := by
  have := ((ha.1.mul hb.1).add (ha.2.1.mul hb.2.1)).add (ha.2.2.mul hb.2.2)
  rwa [show B * C + B * C + B * C = 3 * (B * C) by ring] at this
theorem Units3.cross (ha : Units3 g k B a) (hb : Units3 g l C b) : Units3 g (k + l) (2 * (B * C)) (a.cross b) := by
  rw [two_mul]
  exact ⟨(ha.2.1.mul hb.2.2).sub (ha.2.2.mul hb.2.1), (ha.2.2.mul hb.1).sub (ha.1.mul hb.2.2), (ha.1.mul hb.2.1).sub (ha.2.1.mul hb.1)⟩
theorem Units3.rep (hE : Exact R g B eps) {C : ℤ} (ha : Units3 g k C a) (hk : k ≤ 4 := by omega) (hC : C ≤ 2048 * B ^ 4) : Rep3 R a :=
  ⟨ha.1.rep hE hk hC, ha.2.1.rep hE hk hC, ha.2.2.rep hE hk hC⟩

theorem toV3_add (ha : Rep3 R a) (hb : Rep3 R b) : toV3 R a + toV3 R b = toV3 R (a + b) := by
  ext
  · exact toF_add ha.1 hb.1
  · exact toF_add ha.2.1 hb.2.1
  · exact toF_add ha.2.2 hb.2.2
theorem toV3_sub (ha : Rep3 R a) (hb : Rep3 R b) : toV3 R a - toV3 R b = toV3 R (a - b) := by
  ext
  · exact toF_sub ha.1 hb.1
  · exact toF_sub ha.2.1 hb.2.1
  · exact toF_sub ha.2.2 hb.2.2
theorem toV3_neg (ha : Rep3 R a) : -toV3 R a = toV3 R (-a) := by
  ext
  · exact toF_neg ha.1
  · exact toF_neg ha.2.1
  · exact toF_neg ha.2.2
theorem toV3_zero : toV3 R 0 = 0 := by
  ext <;> exact toF_zero

theorem toV3_dot (hE : Exact R g B eps) {C D : ℤ} (ha : Units3 g k C a) (hb : Units3 g l D b) (hk : k + l ≤ 4) (hC : C ≤ 2048 * B ^ 4) (hD : D ≤ 2048 * B ^ 4) (hC0 : 0 ≤ C * D)
    (hCD : 2 * (C * D) ≤ 2048 * B ^ 4) : (toV3 R a).dot (toV3 R b) = toF R (a.dot b) := by
  have ra := ha.rep hE (by omega) hC
  have rb := hb.rep hE (by omega) hD
  have i : C * D ≤ 2048 * B ^ 4 := by linarith
  show toF R a.x * toF R b.x + toF R a.y * toF R b.y + toF R a.z * toF R b.z = _
  rw [toF_mul ra.1 rb.1, toF_mul ra.2.1 rb.2.1, toF_mul ra.2.2 rb.2.2, toF_add ((ha.1.mul hb.1).rep hE hk i) ((ha.2.1.mul hb.2.1).rep hE hk i),
    toF_add (((ha.1.mul hb.1).add (ha.2.1.mul hb.2.1)).rep hE hk (by linarith)) ((ha.2.2.mul hb.2.2).rep hE hk i)]
  rfl

theorem toV3_cross (hE : Exact R g B eps) {C D : ℤ} (ha : Units3 g k C a) (hb : Units3 g l D b) (hk : k + l ≤ 4) (hC : C ≤ 2048 * B ^ 4) (hD : D ≤ 2048 * B ^ 4)
    (i : C * D ≤ 2048 * B ^ 4) : (toV3 R a).cross (toV3 R b) = toV3 R (a.cross b) := by
  have ra := ha.rep hE (by omega) hC
  have rb := hb.rep hE (by omega) hD
  ext
  · show toF R a.y * toF R b.z - toF R a.z * toF R b.y = _
    rw [toF_mul ra.2.1 rb.2.2, toF_mul ra.2.2 rb.2.1, toF_sub ((ha.2.1.mul hb.2.2).rep hE hk i) ((ha.2.2.mul hb.2.1).rep hE hk i)]
    rfl
  · show toF R a.z * toF R b.x - toF R a.x * toF R b.z = _
    rw [toF_mul ra.2.2 rb.1, toF_mul ra.1 rb.2.2, toF_sub ((ha.2.2.mul hb.1).rep hE hk i) ((ha.1.mul hb.2.2).rep hE hk i)]
    rfl
  · show toF R a.x * toF R b.y - toF R a.y * toF R b.x = _
    rw [toF_mul ra.1 rb.2.1, toF_mul ra.2.1 rb.1, toF_sub ((ha.1.mul hb.2.1).rep hE hk i) ((ha.2.1.mul hb.1).rep hE hk i)]
    rfl

variable (R) in
/-- What 3D needs besides: `t` is the number that stands for `0.1`; it is positive, and multiplied with different multiples of the unit it gives different numbers. -/
structure Tenth (g : ℝ) (B : ℤ) (t : ℝ) : Prop where
  pos : 0 < t
  rep : Rep R t
  neg : Rep R (-t)
  same : toF R (1 / 10) = toF R t
  strict : ∀ m n : ℤ, |m| ≤ 2 * B → |n| ≤ 2 * B → m < n → toF R (t * (g * m)) < toF R (t * (g * n))

/-- A direction along an axis, of length `t`. -/
def Axis3 (t : ℝ) (d : V3 ℝ) : Prop := ∃ s : ℝ, (s = t ∨ s = -t) ∧ (d = ⟨s, 0, 0⟩ ∨ d = ⟨0, s, 0⟩ ∨ d = ⟨0, 0, s⟩)
/-- A direction that GJK may use. -/
def Dir3 (g : ℝ) (B : ℤ) (t : ℝ) (d : V3 ℝ) : Prop := (∃ k ≤ 3, Units3 g k (256 * B ^ 3) d) ∨ Axis3 t d

variable {t : ℝ}
theorem Axis3.neg {d : V3 ℝ} (h : Axis3 t d) : Axis3 t (-d) := by
  obtain ⟨s, hs, h⟩ := h
  refine ⟨-s, by rcases hs with rfl | rfl <;> simp, ?_⟩
  rcases h with rfl | rfl | rfl
  · left; ext <;> simp
  · right; left; ext <;> simp
  · right; right; ext <;> simp
theorem Dir3.neg {d : V3 ℝ} (h : Dir3 g B t d) : Dir3 g B t (-d) := by
  rcases h with ⟨k, hk, h⟩ | h
  · exact Or.inl ⟨k, hk, h.neg⟩
  · exact Or.inr h.neg
theorem Dir3.rep (hE : Exact R g B eps) (hT : Tenth R g B t) {d : V3 ℝ} (h : Dir3 g B t d) : Rep3 R d := by
  rcases h with ⟨k, hk, h⟩ | ⟨s, hs, h⟩
  · obtain ⟨f1, f2, f3, f4⟩ := pow_facts hE.one
    exact h.rep hE (by omega) (by linarith)
  · have rs : Rep R s := by
      rcases hs with rfl | rfl
      · exact hT.rep
      · exact hT.neg
    rcases h with rfl | rfl | rfl
    · exact ⟨rs, rep_zero, rep_zero⟩
    · exact ⟨rep_zero, rs, rep_zero⟩
    · exact ⟨rep_zero, rep_zero, rs⟩

theorem add_zero_F (x : Fl R) : x + 0 = x := by
  show R.rnd (R.val x + R.val R.zero) = x
  rw [R.val_zero, add_zero]
  exact R.rnd_val x
theorem zero_add_F (x : Fl R) : 0 + x = x := by
  show R.rnd (R.val R.zero + R.val x) = x
  rw [R.val_zero, zero_add]
  exact R.rnd_val x

theorem tenth_le (hT : Tenth R g B t) (hg : 0 < g) {s : ℝ} (hs : s = t ∨ s = -t) {x y : ℝ} (hx : Units g 1 (2 * B) x) (hy : Units g 1 (2 * B) y) : toF R (x * s) ≤ toF R (y * s) ↔ x * s ≤ y * s := by
  obtain ⟨m, rfl, hm⟩ := hx
  obtain ⟨n, rfl, hn⟩ := hy
  rw [pow_one]
  have key : ∀ m n : ℤ, |m| ≤ 2 * B → |n| ≤ 2 * B → (toF R (t * (g * m)) ≤ toF R (t * (g * n)) ↔ t * (g * m) ≤ t * (g * n)) := by
    intro m n hm hn
    have htg := mul_pos hT.pos hg
    constructor
    · intro h
      by_contra hcon
      push Not at hcon
      have hlt : n < m := by
        have h1 : t * g * (n : ℝ) < t * g * m := by nlinarith
        exact_mod_cast lt_of_mul_lt_mul_left h1 htg.le
      exact absurd (hT.strict n m hn hm hlt) (not_lt.2 h)
    · intro h
      have h1 : t * g * (m : ℝ) ≤ t * g * n := by nlinarith
      have hle : m ≤ n := by exact_mod_cast le_of_mul_le_mul_left h1 htg
      rcases lt_or_eq_of_le hle with hlt | rfl
      · exact (hT.strict m n hm hn hlt).le
      · exact le_refl _
  rcases hs with rfl | rfl
  · rw [mul_comm, mul_comm _ s]
    exact key m n hm hn
  · have e : ∀ i : ℤ, g * (i : ℝ) * -t = t * (g * ((-i : ℤ) : ℝ)) := by intro i; push_cast; ring
    rw [e, e]
    exact key (-m) (-n) (by rwa [abs_neg]) (by rwa [abs_neg])

theorem Dir3.dot (hE : Exact R g B eps) (hT : Tenth R g B t) {d : V3 ℝ} (h : Dir3 g B t d) :
    (∀ a, Units3 g 1 (2 * B) a → (toV3 R a).dot (toV3 R d) = toF R (a.dot d)) ∧
      ∀ a b, Units3 g 1 (2 * B) a → Units3 g 1 (2 * B) b → (toF R (a.dot d) ≤ toF R (b.dot d) ↔ a.dot d ≤ b.dot d) := by
  obtain ⟨f1, f2, f3, f4⟩ := pow_facts hE.one
  have hB := hE.one
  rcases h with ⟨k, hk, h⟩ | ⟨s, hs, h⟩
  · have e : 2 * B * (256 * B ^ 3) = 512 * B ^ 4 := by ring
    refine ⟨fun a ha => toV3_dot hE ha h (by omega) (by linarith) (by linarith) (by linarith) (by linarith), fun a b ha hb => ?_⟩
    exact toF_le ((ha.dot h).rep hE (by omega) (by linarith)) ((hb.dot h).rep hE (by omega) (by linarith))
  · have rs : Rep R s := by
      rcases hs with rfl | rfl
      · exact hT.rep
      · exact hT.neg
    have i1 : 2 * B ≤ 2048 * B ^ 4 := by linarith
    have z : ∀ {x : ℝ}, Units g 1 (2 * B) x → toF R x * toF R 0 = 0 := by
      intro x hx
      rw [toF_mul (hx.rep hE (by norm_num) i1) rep_zero, mul_zero, toF_zero]
    rcases h with rfl | rfl | rfl
    · have e : ∀ a : V3 ℝ, a.dot ⟨s, 0, 0⟩ = a.x * s := by intro a; simp [V3.dot]
      refine ⟨fun a ha => ?_, fun a b ha hb => ?_⟩
      · show toF R a.x * toF R s + toF R a.y * toF R 0 + toF R a.z * toF R 0 = _
        rw [z ha.2.1, z ha.2.2, add_zero_F, add_zero_F, e, toF_mul (ha.1.rep hE (by norm_num) i1) rs]
      · rw [e, e]; exact tenth_le hT hE.pos hs ha.1 hb.1
    · have e : ∀ a : V3 ℝ, a.dot ⟨0, s, 0⟩ = a.y * s := by intro a; simp [V3.dot]
      refine ⟨fun a ha => ?_, fun a b ha hb => ?_⟩
      · show toF R a.x * toF R 0 + toF R a.y * toF R s + toF R a.z * toF R 0 = _
        rw [z ha.1, z ha.2.2, add_zero_F, zero_add_F, e, toF_mul (ha.2.1.rep hE (by norm_num) i1) rs]
      · rw [e, e]; exact tenth_le hT hE.pos hs ha.2.1 hb.2.1
    · have e : ∀ a : V3 ℝ, a.dot ⟨0, 0, s⟩ = a.z * s := by intro a; simp [V3.dot]
      refine ⟨fun a ha => ?_, fun a b ha hb => ?_⟩
      · show toF R a.x * toF R 0 + toF R a.y * toF R 0 + toF R a.z * toF R s = _
        rw [z ha.1, z ha.2.1, add_zero_F, zero_add_F, e, toF_mul (ha.2.2.rep hE (by norm_num) i1) rs]
      · rw [e, e]; exact tenth_le hT hE.pos hs ha.2.2 hb.2.2

theorem Dir3.sign (hE : Exact R g B eps) (hT : Tenth R g B t) {d : V3 ℝ} (h : Dir3 g B t d) {a : V3 ℝ} (ha : Units3 g 1 (2 * B) a) : (toV3 R a).dot (toV3 R d) ≤ 0 ↔ a.dot d ≤ 0 := by
  obtain ⟨h1, h2⟩ := h.dot hE hT
  have hB := hE.one
  have u : Units g 1 (2 * B) 0 := ⟨0, by simp, by simp; omega⟩
  have := h2 a 0 ha ⟨u, u, u⟩
  rw [show (0 : V3 ℝ).dot d = 0 by simp [V3.dot], toF_zero] at this
  rw [h1 a ha]
  exact this

variable (R) in
/-- The support point in rounded numbers. -/
def spF3 (p : SP (V3 ℝ)) : SP (V3 (Fl R)) := ⟨toV3 R p.v, toV3 R p.supA, toV3 R p.supB⟩

theorem small_iff {x : ℝ} (hE : Exact R g B eps) (hk : eps < g ^ k) (hx : Units g k C x) : (x ≤ eps ∧ -x ≤ eps) ↔ (x ≤ 0 ∧ -x ≤ 0) := by
  rw [← abs_le', ← abs_le']
  constructor
  · intro h
    obtain ⟨m, rfl, -⟩ := hx
    rw [small_multiple (pow_pos hE.pos k) hk h, abs_zero]
  · intro h
    exact h.trans hE.eps_nonneg

theorem near_toF3 (hE : Exact R g B eps) (hk : eps < g ^ k) (hk4 : k ≤ 4) (hC : C ≤ 2048 * B ^ 4) {v : V3 ℝ} (hv : Units3 g k C v) : NearG3 (toF R eps) (toV3 R v) ↔ NearG3 0 v := by
  have key : ∀ {x : ℝ}, Units g k C x → ((toF R x ≤ toF R eps ∧ -toF R x ≤ toF R eps) ↔ (x ≤ 0 ∧ -x ≤ 0)) := by
    intro x hx
    rw [toF_neg (hx.rep hE hk4 hC), toF_le (hx.rep hE hk4 hC) hE.eps_rep, toF_le (hx.neg.rep hE hk4 hC) hE.eps_rep]
    exact small_iff hE hk hx
  exact and_congr (key hv.1) (and_congr (key hv.2.1) (key hv.2.2))

theorem aba_toF (hE : Exact R g B eps) (ha : Units3 g 1 (4 * B) a) (hb : Units3 g 1 (2 * B) b) :
    crossAbaG (toV3 R a) (toV3 R b) = toV3 R (crossAbaG a b) ∧ Units3 g 3 (256 * B ^ 3) (crossAbaG a b) := by
  obtain ⟨f1, f2, f3, f4⟩ := pow_facts hE.one
  have hB := hE.one
  have h3 : 0 ≤ B ^ 3 := by positivity
  have e1 : 4 * B * (2 * B) = 8 * B ^ 2 := by ring
  have e2 : 2 * (8 * B ^ 2) * (4 * B) = 64 * B ^ 3 := by ring
  have u := ha.cross hb
  rw [e1] at u
  have h1 := toV3_cross hE ha hb (by norm_num) (by linarith) (by linarith) (by linarith)
  have h2 := toV3_cross hE u ha (by norm_num) (by linarith) (by linarith) (by linarith)
  constructor
  · unfold crossAbaG
    rw [h1, h2]
  · exact (u.cross ha).mono (by linarith)

theorem side_toF (hE : Exact R g B eps) {abc ab ac ao : V3 ℝ} (h0 : Units3 g 2 (32 * B ^ 2) abc) (h1 : Units3 g 1 (4 * B) ab) (h2 : Units3 g 1 (4 * B) ac) (h3 : Units3 g 1 (2 * B) ao)
    (s0 s1 s2 : SP (V3 ℝ)) (above ignoreAb : Bool) :
    checkSideG (toV3 R abc) (toV3 R ab) (toV3 R ac) (toV3 R ao) (spF3 R s0) (spF3 R s1) (spF3 R s2) above ignoreAb =
      ((checkSideG abc ab ac ao s0 s1 s2 above ignoreAb).1.map (spF3 R), toV3 R (checkSideG abc ab ac ao s0 s1 s2 above ignoreAb).2) ∧
    Dir3 g B t (checkSideG abc ab ac ao s0 s1 s2 above ignoreAb).2 := by
  obtain ⟨f1, f2, f3, f4⟩ := pow_facts hE.one
  have hB := hE.one
  have p3 : 0 ≤ B ^ 3 := by positivity
  have p2 : 0 ≤ B ^ 2 := by positivity
  have p23 : B ^ 2 ≤ B ^ 3 := pow_le_pow_right₀ hB (by norm_num)
  have e1 : 4 * B * (32 * B ^ 2) = 128 * B ^ 3 := by ring
  have e1' : 32 * B ^ 2 * (4 * B) = 128 * B ^ 3 := by ring
  have e2 : 2 * (128 * B ^ 3) * (2 * B) = 512 * B ^ 4 := by ring
  have e3 : 32 * B ^ 2 * (2 * B) = 64 * B ^ 3 := by ring
  have u1 := h1.cross h0
  have u2 := h0.cross h2
  rw [e1] at u1
  rw [e1'] at u2
  have c1 := toV3_cross hE h1 h0 (by norm_num) (by linarith) (by linarith) (by linarith)
  have c2 := toV3_cross hE h0 h2 (by norm_num) (by linarith) (by linarith) (by linarith)
  have d1 := toV3_dot hE u1 h3 (by norm_num) (by linarith) (by linarith) (by linarith) (by linarith)
  have d2 := toV3_dot hE u2 h3 (by norm_num) (by linarith) (by linarith) (by linarith) (by linarith)
  have d3 := toV3_dot hE h0 h3 (by norm_num) (by linarith) (by linarith) (by linarith) (by linarith)
  have r1 := (u1.dot h3).rep hE (by norm_num) (by linarith)
  have r2 := (u2.dot h3).rep hE (by norm_num) (by linarith)
  have r3 := (h0.dot h3).rep hE (by norm_num) (by linarith)
  obtain ⟨a1, a1'⟩ := aba_toF hE h1 h3
  obtain ⟨a2, a2'⟩ := aba_toF hE h2 h3
  have n0 := toV3_neg (h0.rep hE (by norm_num) (by linarith))
  unfold checkSideG
  dsimp only
  rw [c1, c2, d1, d2, d3, a1, a2, n0, ← toF_zero]
  simp only [gt_iff_lt, toF_lt rep_zero r1, toF_lt rep_zero r2, toF_lt rep_zero r3]
  by_cases q1 : (!ignoreAb) = true ∧ 0 < (ab.cross abc).dot ao
  · rw [if_pos q1, if_pos q1]
    exact ⟨rfl, Or.inl ⟨3, le_refl _, a1'⟩⟩
  · rw [if_neg q1, if_neg q1]
    by_cases q2 : 0 < (abc.cross ac).dot ao
    · rw [if_pos q2, if_pos q2]
      exact ⟨rfl, Or.inl ⟨3, le_refl _, a2'⟩⟩
    · rw [if_neg q2, if_neg q2]
      by_cases q3 : above = true ∨ 0 < abc.dot ao
      · rw [if_pos q3, if_pos q3]
        exact ⟨rfl, Or.inl ⟨2, by norm_num, h0.mono (by linarith)⟩⟩
      · rw [if_neg q3, if_neg q3]
        exact ⟨rfl, Or.inl ⟨2, by norm_num, h0.neg.mono (by linarith)⟩⟩

theorem reduce3_toF (hE : Exact R g B eps) {s : List (SP (V3 ℝ))} (hs : ∀ p ∈ s, Units3 g 1 (2 * B) p.v) {d : V3 ℝ} (hd : Dir3 g B t d) :
    reduceG3 (toF R eps) (toF R t) (s.map (spF3 R)) (toV3 R d) = ((reduceG3 0 t s d).1, (reduceG3 0 t s d).2.1.map (spF3 R), toV3 R (reduceG3 0 t s d).2.2) ∧
      Dir3 g B t (reduceG3 0 t s d).2.2 := by
  obtain ⟨f1, f2, f3, f4⟩ := pow_facts hE.one
  have hB := hE.one
  have p2 : 0 ≤ B ^ 2 := by positivity
  have p3 : 0 ≤ B ^ 3 := by positivity
  have p23 : B ^ 2 ≤ B ^ 3 := pow_le_pow_right₀ hB (by norm_num)
  have i0 : 2 * B ≤ 2048 * B ^ 4 := by linarith
  have hsub : ∀ {p q : V3 ℝ}, Units3 g 1 (2 * B) p → Units3 g 1 (2 * B) q → Units3 g 1 (4 * B) (p - q) ∧ toV3 R p - toV3 R q = toV3 R (p - q) := by
    intro p q hp hq
    refine ⟨(hp.sub hq).mono (by linarith), toV3_sub (hp.rep hE (by norm_num) i0) (hq.rep hE (by norm_num) i0)⟩
  have hcross : ∀ {p q : V3 ℝ}, Units3 g 1 (4 * B) p → Units3 g 1 (4 * B) q → Units3 g 2 (32 * B ^ 2) (p.cross q) ∧ (toV3 R p).cross (toV3 R q) = toV3 R (p.cross q) := by
    intro p q hp hq
    have e : 4 * B * (4 * B) = 16 * B ^ 2 := by ring
    have u := hp.cross hq
    rw [e] at u
    exact ⟨u.mono (by linarith), toV3_cross hE hp hq (by norm_num) (by linarith) (by linarith) (by linarith)⟩
  have hdot : ∀ {p q : V3 ℝ}, Units3 g 2 (32 * B ^ 2) p → Units3 g 1 (2 * B) q → ((toV3 R p).dot (toV3 R q) > 0 ↔ p.dot q > 0) := by
    intro p q hp hq
    have e : 32 * B ^ 2 * (2 * B) = 64 * B ^ 3 := by ring
    rw [toV3_dot hE hp hq (by norm_num) (by linarith) (by linarith) (by linarith) (by linarith), ← toF_zero]
    exact toF_lt rep_zero ((hp.dot hq).rep hE (by norm_num) (by linarith))
  match s with
  | [] => exact ⟨rfl, hd⟩
  | [_] => exact ⟨rfl, hd⟩
  | [s0, s1] =>
    have u0 := hs s0 (by simp)
    have u1 := hs s1 (by simp)
    obtain ⟨uab, eab⟩ := hsub u0 u1
    have eao := toV3_neg (u1.rep hE (by norm_num) i0)
    obtain ⟨ht, ut⟩ := aba_toF hE uab u1.neg
    have hnear := near_toF3 hE (by rw [pow_three]; linarith [hE.eps3, mul_assoc g g g]) (by norm_num) (by linarith) ut
    have e : reduceG3 (toF R eps) (toF R t) [spF3 R s0, spF3 R s1] (toV3 R d) = (false, [spF3 R s0, spF3 R s1],
      if NearG3 (toF R eps) (crossAbaG (toV3 R s0.v - toV3 R s1.v) (-toV3 R s1.v)) then (⟨toF R t, (crossAbaG (toV3 R s0.v - toV3 R s1.v) (-toV3 R s1.v)).y,
        (crossAbaG (toV3 R s0.v - toV3 R s1.v) (-toV3 R s1.v)).z⟩ : V3 (Fl R)) else crossAbaG (toV3 R s0.v - toV3 R s1.v) (-toV3 R s1.v)) := rfl
    have e' : reduceG3 0 t [s0, s1] d = (false, [s0, s1], if NearG3 0 (crossAbaG (s0.v - s1.v) (-s1.v)) then (⟨t, (crossAbaG (s0.v - s1.v) (-s1.v)).y,
        (crossAbaG (s0.v - s1.v) (-s1.v)).z⟩ : V3 ℝ) else crossAbaG (s0.v - s1.v) (-s1.v)) := rfl
    rw [show List.map (spF3 R) [s0, s1] = [spF3 R s0, spF3 R s1] from rfl, e, e', eab, eao, ht, if_congr hnear rfl rfl]
    split
    · rename_i hn
      rw [nearG3_field, near3_zero] at hn
      rw [hn]
      exact ⟨rfl, Or.inr ⟨t, Or.inl rfl, Or.inl rfl⟩⟩
    · exact ⟨rfl, Or.inl ⟨3, le_refl _, ut⟩⟩
  | [s0, s1, s2] =>
    have u0 := hs s0 (by simp)
    have u1 := hs s1 (by simp)
    have u2 := hs s2 (by simp)
    obtain ⟨uab, eab⟩ := hsub u1 u2
    obtain ⟨uac, eac⟩ := hsub u0 u2
    have eao := toV3_neg (u2.rep hE (by norm_num) i0)
    obtain ⟨uabc, eabc⟩ := hcross uab uac
    obtain ⟨h1, h2⟩ := side_toF (t := t) hE uabc uab uac u2.neg s0 s1 s2 false false
    refine ⟨?_, h2⟩
    show (false, (checkSideG ((toV3 R s1.v - toV3 R s2.v).cross (toV3 R s0.v - toV3 R s2.v)) (toV3 R s1.v - toV3 R s2.v) (toV3 R s0.v - toV3 R s2.v) (-toV3 R s2.v) (spF3 R s0) (spF3 R s1) (spF3 R s2) false false).1,
      (checkSideG ((toV3 R s1.v - toV3 R s2.v).cross (toV3 R s0.v - toV3 R s2.v)) (toV3 R s1.v - toV3 R s2.v) (toV3 R s0.v - toV3 R s2.v) (-toV3 R s2.v) (spF3 R s0) (spF3 R s1) (spF3 R s2) false false).2) = _
    rw [eab, eac, eao, eabc, h1]
    rfl
  | [s0, s1, s2, s3] =>
    have u0 := hs s0 (by simp)
    have u1 := hs s1 (by simp)
    have u2 := hs s2 (by simp)
    have u3 := hs s3 (by simp)
    obtain ⟨uab, eab⟩ := hsub u2 u3
    obtain ⟨uac, eac⟩ := hsub u1 u3
    obtain ⟨uad, ead⟩ := hsub u0 u3
    have eao := toV3_neg (u3.rep hE (by norm_num) i0)
    obtain ⟨uabc, eabc⟩ := hcross uab uac
    obtain ⟨uacd, eacd⟩ := hcross uac uad
    obtain ⟨uadb, eadb⟩ := hcross uad uab
    obtain ⟨h1, h1'⟩ := side_toF (t := t) hE uabc uab uac u3.neg s1 s2 s3 true false
    obtain ⟨h2, h2'⟩ := side_toF (t := t) hE uacd uac uad u3.neg s0 s1 s3 true true
    have q1 := hdot uabc u3.neg
    have q2 := hdot uacd u3.neg
    have q3 := hdot uadb u3.neg
    show reduceG3 (toF R eps) (toF R t) [spF3 R s0, spF3 R s1, spF3 R s2, spF3 R s3] (toV3 R d) = _ ∧ _
    unfold reduceG3
    dsimp only
    rw [show (spF3 R s0).v = toV3 R s0.v from rfl, show (spF3 R s1).v = toV3 R s1.v from rfl, show (spF3 R s2).v = toV3 R s2.v from rfl, show (spF3 R s3).v = toV3 R s3.v from rfl,
      eab, eac, ead, eao, eabc, eacd, eadb, h1, h2]
    by_cases c1 : ((s2.v - s3.v).cross (s1.v - s3.v)).dot (-s3.v) > 0
    · rw [if_pos c1, if_pos (q1.2 c1)]
      exact ⟨rfl, h1'⟩
    · rw [if_neg c1, if_neg (fun h => c1 (q1.1 h))]
      by_cases c2 : ((s1.v - s3.v).cross (s0.v - s3.v)).dot (-s3.v) > 0
      · rw [if_pos c2, if_pos (q2.2 c2)]
        exact ⟨rfl, h2'⟩
      · rw [if_neg c2, if_neg (fun h => c2 (q2.1 h))]
        by_cases c3 : ((s0.v - s3.v).cross (s2.v - s3.v)).dot (-s3.v) > 0
        · rw [if_pos c3, if_pos (q3.2 c3)]
          exact ⟨rfl, Or.inl ⟨2, by norm_num, uadb.mono (by linarith)⟩⟩
        · rw [if_neg c3, if_neg (fun h => c3 (q3.1 h))]
          exact ⟨rfl, hd⟩
  | _ :: _ :: _ :: _ :: _ :: _ => exact ⟨rfl, hd⟩

theorem reduceG3_keeps (s : List (SP (V3 ℝ))) (d : V3 ℝ) : ∀ p ∈ (reduceG3 0 t s d).2.1, p ∈ s := by
  match s with
  | [] => exact fun p hp => hp
  | [_] => exact fun p hp => hp
  | [_, _] => exact fun p hp => hp
  | [s0, s1, s2] => exact reduce3_mem [s0, s1, s2] d
  | [s0, s1, s2, s3] => exact reduce3_mem [s0, s1, s2, s3] d
  | _ :: _ :: _ :: _ :: _ :: _ => exact fun p hp => hp

/-- The answer in rounded numbers. -/
def outF3 : Out (V3 ℝ) → Out (V3 (Fl R))
  | .hit s => .hit (s.map (spF3 R))
  | .miss => .miss
  | .exhausted => .exhausted

/-- A support function whose rounded version finds the same points, all of them multiples of the unit. -/
structure Follows3 (R : Rounding F) (g : ℝ) (B : ℤ) (t : ℝ) (left : V3 ℝ → Res (V3 ℝ)) (leftF : V3 (Fl R) → Res (V3 (Fl R))) : Prop where
  same : ∀ d, Dir3 g B t d → leftF (toV3 R d) = (left d).mapOk (toV3 R)
  units : ∀ d p, left d = .ok p → Units3 g 1 B p

theorem mink_toF3 (hE : Exact R g B eps) (hT : Tenth R g B t) {left right : V3 ℝ → Res (V3 ℝ)} {leftF rightF : V3 (Fl R) → Res (V3 (Fl R))} (hl : Follows3 R g B t left leftF)
    (hr : Follows3 R g B t right rightF) {d : V3 ℝ} (hd : Dir3 g B t d) :
    SP.fromMinkowski leftF rightF (toV3 R d) = (SP.fromMinkowski left right d).mapOk (spF3 R) ∧ ∀ a, SP.fromMinkowski left right d = .ok a → Units3 g 1 (2 * B) a.v := by
  unfold SP.fromMinkowski
  rw [toV3_neg (hd.rep hE hT), hl.same d hd, hr.same _ hd.neg]
  cases h1 : left d with
  | panic => exact ⟨rfl, nofun⟩
  | timeout => exact ⟨rfl, nofun⟩
  | ok p =>
    cases h2 : right (-d) with
    | panic => exact ⟨rfl, nofun⟩
    | timeout => exact ⟨rfl, nofun⟩
    | ok q =>
      have up := hl.units _ _ h1
      have uq := hr.units _ _ h2
      obtain ⟨f1, f2, f3, f4⟩ := pow_facts hE.one
      constructor
      · show Res.ok (⟨toV3 R p - toV3 R q, toV3 R p, toV3 R q⟩ : SP (V3 (Fl R))) = .ok (spF3 R ⟨p - q, p, q⟩)
        rw [toV3_sub (up.rep hE (by norm_num) (by linarith)) (uq.rep hE (by norm_num) (by linarith))]
        rfl
      · intro a ha
        change Res.ok (⟨p - q, p, q⟩ : SP (V3 ℝ)) = .ok a at ha
        injection ha with ha
        subst ha
        exact (up.sub uq).mono (by linarith)

theorem loop_toF3 (hE : Exact R g B eps) (hT : Tenth R g B t) {left right : V3 ℝ → Res (V3 ℝ)} {leftF rightF : V3 (Fl R) → Res (V3 (Fl R))} (hl : Follows3 R g B t left leftF)
    (hr : Follows3 R g B t right rightF) :
    ∀ n s d, (∀ p ∈ s, Units3 g 1 (2 * B) p.v) → Dir3 g B t d →
      gjkLoop (reduceG3 (toF R eps) (toF R t)) leftF rightF n (s.map (spF3 R)) (toV3 R d) = (gjkLoop (reduceG3 0 t) left right n s d).mapOk outF3
  | 0, _, _, _, _ => rfl
  | n + 1, s, d, hs, hd => by
    obtain ⟨h1, h2⟩ := mink_toF3 hE hT hl hr hd
    unfold gjkLoop
    rw [h1]
    cases ha : SP.fromMinkowski left right d with
    | panic => rfl
    | timeout => rfl
    | ok a =>
      have ua := h2 a ha
      have hs' : ∀ p ∈ s ++ [a], Units3 g 1 (2 * B) p.v := by
        intro p hp
        rcases List.mem_append.1 hp with h | h
        · exact hs p h
        · rw [List.mem_singleton.1 h]; exact ua
      have em : s.map (spF3 R) ++ [spF3 R a] = (s ++ [a]).map (spF3 R) := by simp
      obtain ⟨hred, hdir⟩ := reduce3_toF (t := t) hE hs' hd
      show (if Inner.dot (spF3 R a).v (toV3 R d) ≤ 0 then _ else _) = Res.mapOk outF3 (if Inner.dot a.v d ≤ 0 then _ else _)
      have ec : Inner.dot (spF3 R a).v (toV3 R d) ≤ 0 ↔ Inner.dot a.v d ≤ 0 := hd.sign hE hT ua
      rw [if_congr ec rfl rfl]
      split
      · rfl
      · rw [em, hred]
        dsimp only
        cases hb : (reduceG3 0 t (s ++ [a]) d).1
        · have := loop_toF3 hE hT hl hr n (reduceG3 0 t (s ++ [a]) d).2.1 (reduceG3 0 t (s ++ [a]) d).2.2 (fun p hp => hs' p (reduceG3_keeps _ _ p hp)) hdir
          simpa using this
        · rfl

/-- **C105, any shapes on a grid, 3D**: when the points that the support functions answer are multiples of the unit, rounding does not change which points they answer and the length of the direction does not
either, GJK in rounded arithmetic answers what GJK in exact arithmetic answers. -/
theorem c105_run_3d (hE : Exact R g B eps) (hT : Tenth R g B t) {left right : V3 ℝ → Res (V3 ℝ)} {leftF rightF : V3 (Fl R) → Res (V3 (Fl R))} (hl : Follows3 R g B t left leftF)
    (hr : Follows3 R g B t right rightF) (hhl : Homogeneous3 left) (hhr : Homogeneous3 right) {lp rp : V3 ℝ} (hlp : Units3 g 1 B lp) (hrp : Units3 g 1 B rp) (n : Nat) :
    gjkRunG3 (toF R eps) (toF R (1 / 10)) n leftF rightF (toV3 R lp) (toV3 R rp) = (gjkRun reduce3 n left right lp rp).mapOk outF3 := by
  obtain ⟨f1, f2, f3, f4⟩ := pow_facts hE.one
  have hB := hE.one
  have f5 : B ≤ B ^ 3 := le_self_pow₀ hB (by norm_num)
  have ud := hrp.sub hlp
  rw [← gjkRun_tenth hhl hhr hT.pos, hT.same]
  have efd : firstDirectionG3 (toF R eps) (toV3 R lp) (toV3 R rp) = toV3 R (firstDirectionG3 0 lp rp) := by
    unfold firstDirectionG3
    dsimp only
    rw [toV3_sub (hrp.rep hE (by norm_num) (by linarith)) (hlp.rep hE (by norm_num) (by linarith)), if_congr (near_toF3 hE (by rw [pow_one]; exact hE.eps1) (by norm_num) (by linarith) ud) rfl rfl]
    split
    · rw [← toF_one]; rfl
    · rfl
  have hd : Dir3 g B t (firstDirectionG3 0 lp rp) := by
    unfold firstDirectionG3
    dsimp only
    left
    split
    · refine ⟨0, by norm_num, ⟨1, by simp, ?_⟩, ⟨1, by simp, ?_⟩, ⟨1, by simp, ?_⟩⟩ <;> norm_num <;> linarith
    · exact ⟨1, by norm_num, ud.mono (by linarith)⟩
  obtain ⟨h1, h2⟩ := mink_toF3 hE hT hl hr hd
  unfold gjkRunG3
  dsimp only
  rw [efd, h1]
  cases ha : SP.fromMinkowski left right (firstDirectionG3 0 lp rp) with
  | panic => rfl
  | timeout => rfl
  | ok a =>
    have ua := h2 a ha
    have ec : Inner.dot (spF3 R a).v (toV3 R (firstDirectionG3 0 lp rp)) ≤ 0 ↔ Inner.dot a.v (firstDirectionG3 0 lp rp) ≤ 0 := hd.sign hE hT ua
    show (if Inner.dot (spF3 R a).v (toV3 R (firstDirectionG3 0 lp rp)) ≤ 0 then _ else _) = Res.mapOk outF3 (if Inner.dot a.v (firstDirectionG3 0 lp rp) ≤ 0 then _ else _)
    rw [if_congr ec rfl rfl]
    split
    · rfl
    · rw [toV3_neg (hd.rep hE hT)]
      exact loop_toF3 hE hT hl hr n [a] _ (by simpa using ua) hd.neg

/-! ## The primitives -/

/-- A rotation by quarter turns about the axes, possibly with a reflection: the matrix has one entry `1` or `-1` in each row and column. -/
def Turn3 (m : M3 ℝ) : Prop := ∃ a b c : ℝ, (a = 1 ∨ a = -1) ∧ (b = 1 ∨ b = -1) ∧ (c = 1 ∨ c = -1) ∧
  (m = ⟨⟨a, 0, 0⟩, ⟨0, b, 0⟩, ⟨0, 0, c⟩⟩ ∨ m = ⟨⟨a, 0, 0⟩, ⟨0, 0, b⟩, ⟨0, c, 0⟩⟩ ∨ m = ⟨⟨0, a, 0⟩, ⟨b, 0, 0⟩, ⟨0, 0, c⟩⟩ ∨
    m = ⟨⟨0, a, 0⟩, ⟨0, 0, b⟩, ⟨c, 0, 0⟩⟩ ∨ m = ⟨⟨0, 0, a⟩, ⟨b, 0, 0⟩, ⟨0, c, 0⟩⟩ ∨ m = ⟨⟨0, 0, a⟩, ⟨0, b, 0⟩, ⟨c, 0, 0⟩⟩)
/-- A transform that keeps the grid: no scaling, quarter turns, a displacement on the grid. -/
structure Keeps3 (g : ℝ) (A : ℤ) (D : Dec3 ℝ) : Prop where
  scale : D.scale = 1
  rot : Turn3 D.rot
  disp : Units3 g 1 A D.disp
/-- The coordinates of the shape are multiples of the unit; half of the sides of quads and cuboids are. -/
def Box3.OnGrid (g : ℝ) (A : ℤ) : Box3 ℝ → Prop
  | .particle => True
  | .quad w h => 0 ≤ w ∧ 0 ≤ h ∧ Units g 1 A (w / 2) ∧ Units g 1 A (h / 2)
  | .cuboid w h l => 0 ≤ w ∧ 0 ≤ h ∧ 0 ≤ l ∧ Units g 1 A (w / 2) ∧ Units g 1 A (h / 2) ∧ Units g 1 A (l / 2)
  | .cube w => 0 ≤ w ∧ Units g 1 A (w / 2)
  | .polyhedron vs => vs ≠ [] ∧ ∀ v ∈ vs, Units3 g 1 A v

variable (R) in
/-- The shape in rounded numbers. -/
def Box3.toFl : Box3 ℝ → Box3 (Fl R)
  | .particle => .particle
  | .quad w h => .quad (toF R w) (toF R h)
  | .cuboid w h l => .cuboid (toF R w) (toF R h) (toF R l)
  | .cube w => .cube (toF R w)
  | .polyhedron vs => .polyhedron (vs.map (toV3 R))
variable (R) in
/-- The transform in rounded numbers. -/
def decF3 (D : Dec3 ℝ) : Dec3 (Fl R) := ⟨toF R D.scale, ⟨toV3 R D.rot.c0, toV3 R D.rot.c1, toV3 R D.rot.c2⟩, toV3 R D.disp⟩

theorem turn3_units {m : M3 ℝ} (h : Turn3 m) (g : ℝ) : Units3 g 0 1 m.c0 ∧ Units3 g 0 1 m.c1 ∧ Units3 g 0 1 m.c2 := by
  have h0 : Units g 0 1 0 := ⟨0, by simp, by norm_num⟩
  have h1 : ∀ a : ℝ, (a = 1 ∨ a = -1) → Units g 0 1 a := by
    rintro a (rfl | rfl)
    · exact ⟨1, by simp, by norm_num⟩
    · exact ⟨-1, by simp, by norm_num⟩
  obtain ⟨a, b, c, ha, hb, hc, h⟩ := h
  have ha := h1 a ha
  have hb := h1 b hb
  have hc := h1 c hc
  rcases h with rfl | rfl | rfl | rfl | rfl | rfl <;> exact ⟨⟨by assumption, by assumption, by assumption⟩, ⟨by assumption, by assumption, by assumption⟩, ⟨by assumption, by assumption, by assumption⟩⟩
theorem turn3_transpose {m : M3 ℝ} (h : Turn3 m) : Turn3 (transposeG3 m) := by
  obtain ⟨a, b, c, ha, hb, hc, rfl | rfl | rfl | rfl | rfl | rfl⟩ := h
  · exact ⟨a, b, c, ha, hb, hc, by simp [transposeG3]⟩
  · exact ⟨a, c, b, ha, hc, hb, by simp [transposeG3]⟩
  · exact ⟨b, a, c, hb, ha, hc, by simp [transposeG3]⟩
  · exact ⟨c, a, b, hc, ha, hb, by simp [transposeG3]⟩
  · exact ⟨b, c, a, hb, hc, ha, by simp [transposeG3]⟩
  · exact ⟨c, b, a, hc, hb, ha, by simp [transposeG3]⟩
theorem turn3_apply {m : M3 ℝ} (h : Turn3 m) {v : V3 ℝ} (hv : Units3 g k C v) : Units3 g k C (applyG3 m v) := by
  have h1 : ∀ (a : ℝ) {x : ℝ}, (a = 1 ∨ a = -1) → Units g k C x → Units g k C (a * x) := by
    rintro a x (rfl | rfl) hx
    · rwa [one_mul]
    · rw [neg_one_mul]; exact hx.neg
  obtain ⟨hx, hy, hz⟩ := hv
  obtain ⟨a, b, c, ha, hb, hc, h⟩ := h
  rcases h with rfl | rfl | rfl | rfl | rfl | rfl <;> refine ⟨?_, ?_, ?_⟩ <;> simp [applyG3] <;> (apply h1 <;> assumption)
theorem turn3_axis {m : M3 ℝ} (h : Turn3 m) {v : V3 ℝ} (hv : Axis3 t v) : Axis3 t (applyG3 m v) := by
  obtain ⟨s, hs, hv⟩ := hv
  have h1 : ∀ a : ℝ, (a = 1 ∨ a = -1) → (a * s = t ∨ a * s = -t) := by
    rintro a (rfl | rfl)
    · simpa using hs
    · rcases hs with rfl | rfl <;> simp
  obtain ⟨a, b, c, ha, hb, hc, h⟩ := h
  have ha := h1 a ha
  have hb := h1 b hb
  have hc := h1 c hc
  rcases hv with rfl | rfl | rfl
  · refine ⟨a * s, ha, ?_⟩
    rcases h with rfl | rfl | rfl | rfl | rfl | rfl <;> simp [applyG3, V3.ext_iff]
  · refine ⟨b * s, hb, ?_⟩
    rcases h with rfl | rfl | rfl | rfl | rfl | rfl <;> simp [applyG3, V3.ext_iff]
  · refine ⟨c * s, hc, ?_⟩
    rcases h with rfl | rfl | rfl | rfl | rfl | rfl <;> simp [applyG3, V3.ext_iff]
theorem turn3_dir {m : M3 ℝ} (h : Turn3 m) {d : V3 ℝ} (hd : Dir3 g B t d) : Dir3 g B t (applyG3 m d) := by
  rcases hd with ⟨k, hk, hd⟩ | hd
  · exact Or.inl ⟨k, hk, turn3_apply h hd⟩
  · exact Or.inr (turn3_axis h hd)

theorem zero_mul_F {x : ℝ} (hx : Rep R x) : (0 : Fl R) * toF R x = 0 := by
  rw [← toF_zero, toF_mul rep_zero hx, zero_mul]

theorem apply_toF3 (hE : Exact R g B eps) {m : M3 ℝ} (hm : Turn3 m) {v : V3 ℝ} (hv : Rep3 R v) :
    applyG3 (⟨toV3 R m.c0, toV3 R m.c1, toV3 R m.c2⟩ : M3 (Fl R)) (toV3 R v) = toV3 R (applyG3 m v) := by
  obtain ⟨f1, f2, f3, f4⟩ := pow_facts hE.one
  have hr : ∀ a : ℝ, (a = 1 ∨ a = -1) → Rep R a := by
    rintro a (rfl | rfl)
    · exact rep_one
    · have : Units g 0 1 (-1) := ⟨-1, by simp, by norm_num⟩
      exact this.rep hE (by norm_num) (by linarith)
  obtain ⟨hx, hy, hz⟩ := hv
  have e : applyG3 (⟨toV3 R m.c0, toV3 R m.c1, toV3 R m.c2⟩ : M3 (Fl R)) (toV3 R v) =
    ⟨toF R m.c0.x * toF R v.x + toF R m.c1.x * toF R v.y + toF R m.c2.x * toF R v.z, toF R m.c0.y * toF R v.x + toF R m.c1.y * toF R v.y + toF R m.c2.y * toF R v.z,
      toF R m.c0.z * toF R v.x + toF R m.c1.z * toF R v.y + toF R m.c2.z * toF R v.z⟩ := rfl
  rw [e]
  obtain ⟨a, b, c, ha, hb, hc, h⟩ := hm
  have ra := hr a ha
  have rb := hr b hb
  have rc := hr c hc
  rcases h with rfl | rfl | rfl | rfl | rfl | rfl <;>
    simp only [toF_mul ra hx, toF_mul rb hy, toF_mul rc hz, toF_zero, zero_mul_F hx, zero_mul_F hy, zero_mul_F hz, add_zero_F, zero_add_F] <;>
    simp [applyG3, toV3]

theorem turn3_orthogonal {m : M3 ℝ} (h : Turn3 m) : m.Orthogonal := by
  have sq : ∀ a : ℝ, (a = 1 ∨ a = -1) → a * a = 1 := by rintro a (rfl | rfl) <;> norm_num
  obtain ⟨a, b, c, ha, hb, hc, h⟩ := h
  have ha := sq a ha
  have hb := sq b hb
  have hc := sq c hc
  rcases h with rfl | rfl | rfl | rfl | rfl | rfl <;>
    refine ⟨by simp [V3.dot, ha, hb, hc], fun v => ?_⟩ <;>
    ext <;> simp [M3.apply, M3.transpose, ← mul_assoc, ha, hb, hc]

variable {A : ℤ}
theorem point3_units {D : Dec3 ℝ} (hD : Keeps3 g A D) {p : V3 ℝ} (hp : Units3 g 1 A p) : Units3 g 1 (2 * A) (pointG3 D p) := by
  unfold pointG3
  rw [hD.scale, show p * (1 : ℝ) = p by ext <;> simp]
  exact ((turn3_apply hD.rot hp).add hD.disp).mono (by linarith)
theorem point3_toF (hE : Exact R g (2 * A) eps) {D : Dec3 ℝ} (hD : Keeps3 g A D) {p : V3 ℝ} (hp : Units3 g 1 A p) : pointG3 (decF3 R D) (toV3 R p) = toV3 R (pointG3 D p) := by
  obtain ⟨f1, f2, f3, f4⟩ := pow_facts hE.one
  have hA := hE.one
  have rp := hp.rep hE (by norm_num) (by linarith)
  have e : toV3 R p * (decF3 R D).scale = toV3 R p := by
    show toV3 R p * toF R D.scale = _
    rw [hD.scale]
    ext
    · show toF R p.x * toF R 1 = _
      rw [toF_mul rp.1 rep_one, mul_one]; rfl
    · show toF R p.y * toF R 1 = _
      rw [toF_mul rp.2.1 rep_one, mul_one]; rfl
    · show toF R p.z * toF R 1 = _
      rw [toF_mul rp.2.2 rep_one, mul_one]; rfl
  have e' : p * D.scale = p := by rw [hD.scale]; ext <;> simp
  unfold pointG3
  rw [e, e']
  show applyG3 (⟨toV3 R D.rot.c0, toV3 R D.rot.c1, toV3 R D.rot.c2⟩ : M3 (Fl R)) (toV3 R p) + toV3 R D.disp = _
  rw [apply_toF3 hE hD.rot rp, toV3_add ((turn3_apply hD.rot hp).rep hE (by norm_num) (by linarith)) (hD.disp.rep hE (by norm_num) (by linarith))]

theorem inv3_toF (hE : Exact R g B eps) (hT : Tenth R g B t) {D : Dec3 ℝ} (hD : Keeps3 g A D) {d : V3 ℝ} (hd : Dir3 g B t d) :
    ∃ e, Dir3 g B t e ∧ invVectorG3 D d = some e ∧ invVectorG3 (decF3 R D) (toV3 R d) = some (toV3 R e) := by
  have rd := hd.rep hE hT
  refine ⟨applyG3 (transposeG3 D.rot) d, turn3_dir (turn3_transpose hD.rot) hd, ?_, ?_⟩
  · unfold invVectorG3
    rw [hD.scale, if_neg one_ne_zero, show d / (1 : ℝ) = d by ext <;> simp]
  · unfold invVectorG3
    have hs : (decF3 R D).scale = 1 := by
      show toF R D.scale = 1
      rw [hD.scale, toF_one]
    have hne : (1 : Fl R) ≠ 0 := by
      rw [← toF_one, ← toF_zero]
      exact fun h => one_ne_zero ((toF_inj rep_one rep_zero).1 h)
    have e : toV3 R d / (1 : Fl R) = toV3 R d := by
      rw [← toF_one]
      ext
      · show toF R d.x / toF R 1 = _
        rw [toF_div rd.1 rep_one, div_one]; rfl
      · show toF R d.y / toF R 1 = _
        rw [toF_div rd.2.1 rep_one, div_one]; rfl
      · show toF R d.z / toF R 1 = _
        rw [toF_div rd.2.2 rep_one, div_one]; rfl
    rw [hs, if_neg hne, e]
    exact congrArg some (apply_toF3 hE (turn3_transpose hD.rot) rd)

theorem maxPoint3_toF (hE : Exact R g B eps) (hT : Tenth R g B t) {vs : List (V3 ℝ)} (hv : ∀ v ∈ vs, Units3 g 1 (2 * B) v) {e : V3 ℝ} (he : Dir3 g B t e) :
    maxPointG3 (vs.map (toV3 R)) (toV3 R e) = toV3 R (maxPointG3 vs e) := by
  obtain ⟨d1, d2⟩ := he.dot hE hT
  unfold maxPointG3
  rw [List.foldl_map]
  suffices h : ∀ (vs : List (V3 ℝ)) (p : V3 ℝ) (m : Option ℝ), (∀ v ∈ vs, Units3 g 1 (2 * B) v) → (∀ x, m = some x → ∃ w, Units3 g 1 (2 * B) w ∧ x = w.dot e) →
      vs.foldl (fun acc v => maxStepG3 (toV3 R e) acc (toV3 R v)) (toV3 R p, m.map (toF R)) =
      ((toV3 R (vs.foldl (maxStepG3 e) (p, m)).1), (vs.foldl (maxStepG3 e) (p, m)).2.map (toF R)) by
    have := h vs 0 none hv nofun
    rw [toV3_zero] at this
    exact congrArg Prod.fst this
  intro vs
  induction vs with
  | nil => intros; rfl
  | cons v vs ih =>
    intro p m hv hm
    have uv := hv v (by simp)
    have e1 := d1 v uv
    have hv' : ∀ w ∈ vs, Units3 g 1 (2 * B) w := fun w hw => hv w (List.mem_cons_of_mem _ hw)
    have hsome : ∀ x, some (v.dot e) = some x → ∃ w, Units3 g 1 (2 * B) w ∧ x = w.dot e := by
      intro x hx
      injection hx with hx
      exact ⟨v, uv, hx.symm⟩
    rw [List.foldl_cons, List.foldl_cons]
    cases m with
    | none =>
      show List.foldl _ (toV3 R v, some ((toV3 R v).dot (toV3 R e))) vs = _
      rw [e1]
      exact ih v (some (v.dot e)) hv' hsome
    | some x =>
      obtain ⟨w, uw, rfl⟩ := hm x rfl
      have ec : toF R (v.dot e) > toF R (w.dot e) ↔ v.dot e > w.dot e := by
        rw [gt_iff_lt, gt_iff_lt, ← not_le, ← not_le, d2 v w uv uw]
      show List.foldl _ (if (toV3 R v).dot (toV3 R e) > toF R (w.dot e) then (toV3 R v, some ((toV3 R v).dot (toV3 R e))) else (toV3 R p, some (toF R (w.dot e)))) vs = _
      rw [e1]
      by_cases hc : v.dot e > w.dot e
      · rw [if_pos (ec.2 hc), show maxStepG3 e (p, some (w.dot e)) v = (v, some (v.dot e)) from if_pos hc]
        exact ih v (some (v.dot e)) hv' hsome
      · rw [if_neg (fun h => hc (ec.1 h)), show maxStepG3 e (p, some (w.dot e)) v = (p, some (w.dot e)) from if_neg hc]
        exact ih p (some (w.dot e)) hv' hm

theorem box_verts_toF (hE : Exact R g (2 * A) eps) {s : Box3 ℝ} (hs : s.OnGrid g A) : (s.toFl R).vertsG = s.vertsG.map (toV3 R) ∧ (∀ v ∈ s.vertsG, Units3 g 1 A v) ∧ s.vertsG ≠ [] := by
  obtain ⟨f1, f2, f3, f4⟩ := pow_facts hE.one
  have hA := hE.one
  have e2 : (1 : Fl R) + 1 = toF R 2 := by
    rw [← toF_one, toF_add rep_one rep_one]
    norm_num
  have r2 : Rep R 2 := by
    have : Units g 0 2 2 := ⟨2, by simp, by norm_num⟩
    exact this.rep hE (by norm_num) (by linarith)
  have dbl : ∀ {x : ℝ}, Units g 1 A (x / 2) → Rep R x := by
    intro x hx
    have := hx.add hx
    rw [add_halves] at this
    exact this.rep hE (by norm_num) (by linarith)
  have u0 : Units g 1 A 0 := ⟨0, by simp, by simp; omega⟩
  have half : ∀ {x : ℝ}, Units g 1 A (x / 2) → toF R x / ((1 : Fl R) + 1) = toF R (x / 2) ∧ -(toF R x / ((1 : Fl R) + 1)) = toF R (-(x / 2)) := by
    intro x hx
    rw [e2, toF_div (dbl hx) r2, toF_neg (hx.rep hE (by norm_num) (by linarith))]
    exact ⟨rfl, rfl⟩
  have box : ∀ {w h l : ℝ}, Units g 1 A (w / 2) → Units g 1 A (h / 2) → Units g 1 A (l / 2) →
      boxCornersG (⟨toF R w, toF R h, toF R l⟩ : V3 (Fl R)) = (boxCornersG (⟨w, h, l⟩ : V3 ℝ)).map (toV3 R) ∧ (∀ v ∈ boxCornersG (⟨w, h, l⟩ : V3 ℝ), Units3 g 1 A v) ∧ boxCornersG (⟨w, h, l⟩ : V3 ℝ) ≠ [] := by
    intro w h l hw hh hl
    refine ⟨?_, ?_, by simp [boxCornersG]⟩
    · unfold boxCornersG
      dsimp only [V3.div_x, V3.div_y, V3.div_z]
      rw [(half hw).2, (half hh).2, (half hl).2, (half hw).1, (half hh).1, (half hl).1]
      norm_num [toV3]
    · unfold boxCornersG
      norm_num
      exact ⟨⟨hw, hh, hl⟩, ⟨hw.neg, hh, hl⟩, ⟨hw.neg, hh.neg, hl⟩, ⟨hw, hh.neg, hl⟩, ⟨hw, hh, hl.neg⟩, ⟨hw.neg, hh, hl.neg⟩, ⟨hw.neg, hh.neg, hl.neg⟩, ⟨hw, hh.neg, hl.neg⟩⟩
  cases s with
  | particle =>
    refine ⟨?_, ?_, by simp [Box3.vertsG]⟩
    · show [(0 : V3 (Fl R))] = [toV3 R 0]
      rw [toV3_zero]
    · simp [Box3.vertsG]
      exact ⟨u0, u0, u0⟩
  | quad w h =>
    obtain ⟨-, -, hw, hh⟩ := hs
    refine ⟨?_, ?_, by simp [Box3.vertsG, quadCornersG]⟩
    · show quadCornersG (⟨toF R w, toF R h⟩ : V2 (Fl R)) = (quadCornersG (⟨w, h⟩ : V2 ℝ)).map (toV3 R)
      unfold quadCornersG
      dsimp only [V2.div_x, V2.div_y]
      rw [(half hw).2, (half hh).2, (half hw).1, (half hh).1]
      norm_num [toV3, toF_zero]
    · show ∀ v ∈ quadCornersG (⟨w, h⟩ : V2 ℝ), Units3 g 1 A v
      unfold quadCornersG
      norm_num
      exact ⟨⟨hw, hh, u0⟩, ⟨hw.neg, hh, u0⟩, ⟨hw.neg, hh.neg, u0⟩, ⟨hw, hh.neg, u0⟩⟩
  | cuboid w h l => exact box hs.2.2.2.1 hs.2.2.2.2.1 hs.2.2.2.2.2
  | cube w => exact box hs.2 hs.2 hs.2
  | polyhedron vs => exact ⟨rfl, hs.2, hs.1⟩

theorem supportG3_eq {K : Type} [Add K] [Sub K] [Mul K] [Div K] [Neg K] [Zero K] [One K] [LinearOrder K] (s : Box3 K) (D : Dec3 K) {d e : V3 K} (h : invVectorG3 D d = some e) :
    s.supportG D d = .ok (pointG3 D (maxPointG3 s.vertsG e)) := by
  cases s <;> simp [Box3.supportG, h] <;> rfl

theorem maxPointG3_mem {vs : List (V3 ℝ)} (h : vs ≠ []) (e : V3 ℝ) : maxPointG3 vs e ∈ vs := (maxPoint3_spec vs e h).1

theorem box_follows (hE : Exact R g (2 * A) eps) (hT : Tenth R g (2 * A) t) {s : Box3 ℝ} (hs : s.OnGrid g A) {D : Dec3 ℝ} (hD : Keeps3 g A D) :
    Follows3 R g (2 * A) t (s.supportG D) ((s.toFl R).supportG (decF3 R D)) := by
  have hA := hE.one
  obtain ⟨h1, h2, h3⟩ := box_verts_toF hE hs
  constructor
  · intro d hd
    obtain ⟨e, he, i1, i2⟩ := inv3_toF hE hT hD hd
    rw [supportG3_eq _ _ i1, supportG3_eq _ _ i2, h1, maxPoint3_toF hE hT (fun v hv => (h2 v hv).mono (by linarith)) he, point3_toF hE hD (h2 _ (maxPointG3_mem h3 e))]
    rfl
  · intro d p hp
    have i1 : invVectorG3 D d = some (applyG3 (transposeG3 D.rot) (d / D.scale)) := by
      unfold invVectorG3
      rw [if_neg (by rw [hD.scale]; norm_num)]
    rw [supportG3_eq _ _ i1] at hp
    injection hp with hp
    rw [← hp]
    exact point3_units hD (h2 _ (maxPointG3_mem h3 _))

theorem box_ok {s : Box3 ℝ} (hs : s.OnGrid g A) : s.prim.Ok := by
  cases s with
  | particle => trivial
  | quad w h => exact ⟨w, h, hs.1, hs.2.1, rfl⟩
  | cuboid w h l => exact ⟨w, h, l, hs.1, hs.2.1, hs.2.2.1, rfl⟩
  | cube w => exact ⟨w, hs.1, rfl⟩
  | polyhedron vs => exact Or.inl ⟨vs, hs.1, rfl⟩
theorem box_flat (s : Box3 ℝ) : Flat3 s.prim := by
  cases s <;> trivial

/-- **C105 for the 3D primitives with corners, in any rounded arithmetic that is exact on the grid**: the rounded run is the exact run. -/
theorem c105_prim3 (hE : Exact R g (2 * A) eps) (hT : Tenth R g (2 * A) t) {s u : Box3 ℝ} (hs : s.OnGrid g A) (hu : u.OnGrid g A) {D E : Dec3 ℝ} (hD : Keeps3 g A D) (hF : Keeps3 g A E)
    (nz nz' : V3 ℝ → Bool) (n : Nat) :
    gjkIntersectG3 (toF R eps) (toF R (1 / 10)) n ((s.toFl R).supportG (decF3 R D)) ((u.toFl R).supportG (decF3 R E)) (pointG3 (decF3 R D) 0) (pointG3 (decF3 R E) 0) =
      (gjkIntersect reduce3 n (s.prim.supportPoint nz D.tr) (u.prim.supportPoint nz' E.tr) (D.tr.point 0) (E.tr.point 0)).mapOk (Option.map (List.map (spF3 R))) := by
  have hA := hE.one
  have z : Units g 1 A 0 := ⟨0, by simp, by simp; omega⟩
  have u0 : Units3 g 1 A 0 := ⟨z, z, z⟩
  have h := c105_run_3d hE hT (box_follows hE hT hs hD) (box_follows hE hT hu hF) (box_homogeneous s D) (box_homogeneous u E) (point3_units hD u0) (point3_units hF u0) n
  rw [← point3_toF hE hD u0, ← point3_toF hE hF u0, toV3_zero, funext (s.supportG_real nz D), funext (u.supportG_real nz' E)] at h
  unfold gjkIntersectG3 gjkIntersect
  rw [h]
  show _ = Res.mapOk _ (do let o ← gjkRun reduce3 n (s.prim.supportPoint nz D.tr) (u.prim.supportPoint nz' E.tr) (pointG3 D 0) (pointG3 E 0); return o.toOption)
  cases gjkRun reduce3 n (s.prim.supportPoint nz D.tr) (u.prim.supportPoint nz' E.tr) (pointG3 D 0) (pointG3 E 0) with
  | panic => rfl
  | timeout => rfl
  | ok o => cases o <;> rfl
end rounded

/-! ## `f64` -/

theorem rnd_lt_of_between {F : Type} [LinearOrder F] {R : Rounding F} {x y z w : ℝ} (h1 : x ≤ z) (h2 : z < w) (h3 : w ≤ y) (hz : Rep R z) (hw : Rep R w) : toF R x < toF R y :=
  lt_of_le_of_lt (R.rnd_mono (EReal.coe_le_coe_iff.2 h1)) (lt_of_lt_of_le ((toF_lt hz hw).2 h2) (R.rnd_mono (EReal.coe_le_coe_iff.2 h3)))

/-- The number that stands for `0.1` in `f64`. -/
theorem tenth64 {e : ℤ} (h1 : -17 ≤ e) (h2 : e ≤ 242) {B : ℤ} (hB : 1 ≤ B) (hB' : B ≤ 1448) : ∃ t, Tenth binary64 ((2 : ℝ) ^ e) B t := by
  obtain ⟨t, ht, hr, hn⟩ := Dbvt.rnd64_nearest (x := 1 / 10) (by
    have := Dbvt.rep64_lt Dbvt.rep64_one
    rw [abs_one] at this
    rw [abs_of_pos (by norm_num)]
    linarith)
  have hb := hn (13 / 128) ⟨13, -7, by norm_num, by norm_num, by norm_num, by norm_num⟩
  rw [show |(13 / 128 : ℝ) - 1 / 10| = 1 / 640 by rw [abs_of_pos (by norm_num)]; norm_num] at hb
  obtain ⟨hb1, hb2⟩ := abs_le.1 hb
  have hneg : Rep64 (-t) := by
    obtain ⟨m, e, a, b, c, d⟩ := ht
    exact ⟨-m, e, by rwa [abs_neg], b, c, by rw [d]; push_cast; ring⟩
  have hg : (0 : ℝ) < (2 : ℝ) ^ e := zpow_pos (by norm_num) e
  refine ⟨t, by linarith, rep_of_rep64 ht, rep_of_rep64 hneg, ?_, ?_⟩
  · have : binary64.rnd (t : EReal) = Dbvt.F64.fin t ht := binary64.rnd_val (Dbvt.F64.fin t ht)
    exact hr.trans this.symm
  · intro m n hm hn' hmn
    -- two multiples of a sixty-fourth of the unit lie between
    have hmn' : (m : ℝ) + 1 ≤ n := by exact_mod_cast hmn
    set q := ⌈64 * (t * m)⌉ with hq
    have q1 : 64 * (t * m) ≤ q := Int.le_ceil _
    have q2 : (q : ℝ) < 64 * (t * m) + 1 := Int.ceil_lt_add_one _
    have hm' : |(m : ℝ)| ≤ 2896 := by
      rw [← Int.cast_abs]
      have : |m| ≤ 2896 := by omega
      exact_mod_cast this
    have ht1 : 3 / 32 ≤ t := by linarith
    have ht2 : t ≤ 1 / 8 := by linarith
    have hqb : |q| ≤ 23169 := by
      have htm : |t * (m : ℝ)| ≤ 1 / 8 * 2896 := by
        rw [abs_mul]
        exact mul_le_mul (by rw [abs_of_pos (by linarith)]; exact ht2) hm' (abs_nonneg _) (by norm_num)
      obtain ⟨w1, w2⟩ := abs_le.1 htm
      rw [abs_le]
      constructor
      · have : (-23169 : ℝ) ≤ q := by linarith
        exact_mod_cast this
      · have : (q : ℝ) ≤ 23169 := by linarith
        exact_mod_cast this
    obtain ⟨hq1, hq2⟩ := abs_le.1 hqb
    have e6 : (2 : ℝ) ^ (e - 6) = (2 : ℝ) ^ e / 64 := by
      rw [zpow_sub₀ (by norm_num)]
      norm_num
    have rep : ∀ j : ℤ, |j| ≤ 23170 → Rep binary64 ((j : ℝ) * (2 : ℝ) ^ (e - 6)) := by
      intro j hj
      refine rep_of_rep64 ⟨j, e - 6, ?_, by omega, by omega, rfl⟩
      norm_num
      omega
    refine rnd_lt_of_between (z := (q : ℝ) * (2 : ℝ) ^ (e - 6)) (w := ((q + 1 : ℤ) : ℝ) * (2 : ℝ) ^ (e - 6)) ?_ ?_ ?_ (rep q (by omega)) (rep (q + 1) (by rw [abs_le]; constructor <;> omega))
    · rw [e6, show t * ((2 : ℝ) ^ e * m) = 64 * (t * m) * ((2 : ℝ) ^ e / 64) by ring]
      exact mul_le_mul_of_nonneg_right q1 (by positivity)
    · refine mul_lt_mul_of_pos_right (by push_cast; linarith) (by rw [e6]; positivity)
    · rw [e6, show t * ((2 : ℝ) ^ e * n) = 64 * (t * n) * ((2 : ℝ) ^ e / 64) by ring]
      refine mul_le_mul_of_nonneg_right ?_ (by positivity)
      push_cast
      have : t * (m + 1) ≤ t * n := mul_le_mul_of_nonneg_left hmn' (by linarith)
      nlinarith

/-- **C105, `f64`, 3D**: two cuboids, cubes, quads, particles or polyhedra without faces, whose coordinates and displacements are multiples of `2^e`, at most `724` of them, with rotations by quarter turns.
GJK in `f64` returns what GJK in exact arithmetic returns, with exactly the same simplex; so a returned simplex is a tetrahedron around the origin whose corners are differences of points of the shapes, and the
shapes share a point. -/
theorem c105_f64_3d {e : ℤ} (h1 : -17 ≤ e) (h2 : e ≤ 242) {s u : Box3 ℝ} (hs : s.OnGrid ((2 : ℝ) ^ e) 724) (hu : u.OnGrid ((2 : ℝ) ^ e) 724) {D E : Dec3 ℝ} (hD : Keeps3 ((2 : ℝ) ^ e) 724 D)
    (hF : Keeps3 ((2 : ℝ) ^ e) 724 E) (nz nz' : V3 ℝ → Bool) (n : Nat) :
    ∃ o, gjkIntersect reduce3 n (s.prim.supportPoint nz D.tr) (u.prim.supportPoint nz' E.tr) (D.tr.point 0) (E.tr.point 0) = .ok o ∧
      gjkIntersectG3 (toF binary64 eps64) (toF binary64 (1 / 10)) n ((s.toFl binary64).supportG (decF3 binary64 D)) ((u.toFl binary64).supportG (decF3 binary64 E))
        (pointG3 (decF3 binary64 D) 0) (pointG3 (decF3 binary64 E) 0) = .ok (o.map (List.map (spF3 binary64))) ∧
      ∀ x, o = some x → (∃ p, Image D.tr s.prim.Points p ∧ Image E.tr u.prim.Points p) ∧
        ∃ a b c d, x = [a, b, c, d] ∧ (∀ p ∈ x, FromShapes3 (Image D.tr s.prim.Points) (Image E.tr u.prim.Points) p) ∧ InTetrahedron a.v b.v c.v d.v := by
  have hE := exact64 h1 h2 (B := 2 * 724) (by norm_num) (by norm_num)
  obtain ⟨t, hT⟩ := tenth64 h1 h2 (B := 2 * 724) (by norm_num) (by norm_num)
  have sD : D.scale ≠ 0 := by rw [hD.scale]; norm_num
  have sE : E.scale ≠ 0 := by rw [hF.scale]; norm_num
  obtain ⟨o, ho, hh⟩ := c53_prim3 s.prim u.prim (box_ok hs) (box_ok hu) (box_flat s) (box_flat u) nz nz' D E sD sE n
  refine ⟨o, ho, ?_, hh⟩
  rw [c105_prim3 hE hT hs hu hD hF nz nz', ho]
  rfl

theorem turn3_id : Turn3 (⟨⟨1, 0, 0⟩, ⟨0, 1, 0⟩, ⟨0, 0, 1⟩⟩ : M3 ℝ) := ⟨1, 1, 1, Or.inl rfl, Or.inl rfl, Or.inl rfl, Or.inl rfl⟩
theorem unit_nat (n : ℕ) (h : n ≤ 724) {x : ℝ} (hx : x = n) : Units ((2 : ℝ) ^ (0 : ℤ)) 1 724 x :=
  ⟨n, by rw [hx]; simp, by rw [abs_of_nonneg (by positivity)]; exact_mod_cast h⟩
theorem keeps_shift {x y z : ℝ} (a b c : ℕ) (ha : a ≤ 724) (hb : b ≤ 724) (hc : c ≤ 724) (ex : x = a) (ey : y = b) (ez : z = c) : Keeps3 ((2 : ℝ) ^ (0 : ℤ)) 724 (shift3 x y z) :=
  ⟨rfl, turn3_id, unit_nat a ha ex, unit_nat b hb ey, unit_nat c hc ez⟩
theorem cube_grid {x : ℝ} (a : ℕ) (ha : a ≤ 724) (ex : x / 2 = a) : (Box3.cuboid x x x).OnGrid ((2 : ℝ) ^ (0 : ℤ)) 724 := by
  have h := unit_nat a ha ex
  have : 0 ≤ x := by
    have : (0 : ℝ) ≤ a := by positivity
    linarith
  exact ⟨this, this, this, h, h, h⟩

/-- A case of `c105_f64_3d`: two cubes of side 12, offset (6, 3, 2), collide in `f64`. -/
theorem c105_example_3d (nz : V3 ℝ → Bool) : ∃ x, gjkIntersectG3 (toF binary64 eps64) (toF binary64 (1 / 10)) 100 (((Box3.cuboid 12 12 12).toFl binary64).supportG (decF3 binary64 (shift3 0 0 0)))
    (((Box3.cuboid 12 12 12).toFl binary64).supportG (decF3 binary64 (shift3 6 3 2))) (pointG3 (decF3 binary64 (shift3 0 0 0)) 0) (pointG3 (decF3 binary64 (shift3 6 3 2)) 0) = .ok (some x) := by
  obtain ⟨o, h1, h2, -⟩ := c105_f64_3d (e := 0) (by norm_num) (by norm_num) (cube_grid (x := 12) 6 (by norm_num) (by norm_num)) (cube_grid (x := 12) 6 (by norm_num) (by norm_num))
    (keeps_shift (x := 0) (y := 0) (z := 0) 0 0 0 (by norm_num) (by norm_num) (by norm_num) (by simp) (by simp) (by simp)) (keeps_shift (x := 6) (y := 3) (z := 2) 6 3 2 (by norm_num) (by norm_num) (by norm_num) (by simp) (by simp) (by simp)) nz nz 100
  obtain ⟨x, hx⟩ := c79_example 97
  have h3 := h1.symm.trans hx
  injection h3 with h3
  rw [h3] at h2
  exact ⟨_, h2⟩

/-- C52 fails in `f64` as it does in exact arithmetic (`c52_3d_false`): two cubes of side 10 at offset (7, 0, 0), that overlap by 3, are reported as not colliding. -/
theorem c105_f64_miss (nz : V3 ℝ → Bool) (n : Nat) :
    gjkIntersectG3 (toF binary64 eps64) (toF binary64 (1 / 10)) (n + 3) (((Box3.cuboid 10 10 10).toFl binary64).supportG (decF3 binary64 (shift3 0 0 0)))
      (((Box3.cuboid 10 10 10).toFl binary64).supportG (decF3 binary64 (shift3 7 0 0))) (pointG3 (decF3 binary64 (shift3 0 0 0)) 0) (pointG3 (decF3 binary64 (shift3 7 0 0)) 0) = .ok none := by
  have hs : (Box3.cuboid (10 : ℝ) 10 10).OnGrid ((2 : ℝ) ^ (0 : ℤ)) 724 := cube_grid 5 (by norm_num) (by norm_num)
  obtain ⟨o, h1, h2, -⟩ := c105_f64_3d (e := 0) (by norm_num) (by norm_num) hs hs
    (keeps_shift (x := 0) (y := 0) (z := 0) 0 0 0 (by norm_num) (by norm_num) (by norm_num) (by simp) (by simp) (by simp)) (keeps_shift (x := 7) (y := 0) (z := 0) 7 0 0 (by norm_num) (by norm_num) (by norm_num) (by simp) (by simp) (by simp)) nz nz (n + 3)
  rw [h2]
  suffices h : gjkIntersect reduce3 (n + 3) ((Cuboid.new (10 : ℝ) 10 10).supportPoint (shift3 0 0 0).tr) ((Cuboid.new (10 : ℝ) 10 10).supportPoint (shift3 7 0 0).tr)
      ((shift3 0 0 0).tr.point 0) ((shift3 7 0 0).tr.point 0) = .ok none by
    have h3 := h1.symm.trans h
    injection h3 with h3
    rw [h3]; rfl
  have mp : ∀ d e : V3 ℝ, ∀ p q r v : V3 ℝ, ∀ k : ℝ, 0 < k → maxPoint3 (Cuboid.new (10 : ℝ) 10 10).corners e = p → maxPoint3 (Cuboid.new (10 : ℝ) 10 10).corners (-e) = q → d = e * k → r = q + ⟨7, 0, 0⟩ →
      v = p - (q + ⟨7, 0, 0⟩) →
      SP.fromMinkowski ((Cuboid.new (10 : ℝ) 10 10).supportPoint (shift3 0 0 0).tr) ((Cuboid.new (10 : ℝ) 10 10).supportPoint (shift3 7 0 0).tr) d = .ok ⟨v, p, r⟩ := by
    rintro d e p q r v k hk h1 h2 h3 rfl h5
    exact fromMinkowski_boxes 10 10 10 10 10 10 7 0 0 e hk h1 h2 h3 h5
  have one : ∀ d : V3 ℝ, d = d * (1 : ℝ) := by intro d; ext <;> simp
  have q0 := mp ⟨7, 0, 0⟩ ⟨7, 0, 0⟩ ⟨5, 5, 5⟩ ⟨-5, 5, 5⟩ ⟨2, 5, 5⟩ ⟨3, 0, 0⟩ 1 one_pos
    (by norm_num [Cuboid.new, Cuboid.newImpl, Cuboid.generateCorners, maxPoint3, V3.dot, V3.ext_iff])
    (by norm_num [Cuboid.new, Cuboid.newImpl, Cuboid.generateCorners, maxPoint3, V3.dot, V3.ext_iff]) (one _) (by ext <;> norm_num) (by ext <;> norm_num)
  have q1 := mp ⟨-7, 0, 0⟩ ⟨-7, 0, 0⟩ ⟨-5, 5, 5⟩ ⟨5, 5, 5⟩ ⟨12, 5, 5⟩ ⟨-17, 0, 0⟩ 1 one_pos
    (by norm_num [Cuboid.new, Cuboid.newImpl, Cuboid.generateCorners, maxPoint3, V3.dot, V3.ext_iff])
    (by norm_num [Cuboid.new, Cuboid.newImpl, Cuboid.generateCorners, maxPoint3, V3.dot, V3.ext_iff]) (one _) (by ext <;> norm_num) (by ext <;> norm_num)
  have q2 := mp ⟨1 / 10, 0, 0⟩ ⟨1 / 10, 0, 0⟩ ⟨5, 5, 5⟩ ⟨-5, 5, 5⟩ ⟨2, 5, 5⟩ ⟨3, 0, 0⟩ 1 one_pos
    (by norm_num [Cuboid.new, Cuboid.newImpl, Cuboid.generateCorners, maxPoint3, V3.dot, V3.ext_iff])
    (by norm_num [Cuboid.new, Cuboid.newImpl, Cuboid.generateCorners, maxPoint3, V3.dot, V3.ext_iff]) (one _) (by ext <;> norm_num) (by ext <;> norm_num)
  have q3 := mp 0 0 ⟨5, 5, 5⟩ ⟨5, 5, 5⟩ ⟨12, 5, 5⟩ ⟨-7, 0, 0⟩ 1 one_pos
    (by norm_num [Cuboid.new, Cuboid.newImpl, Cuboid.generateCorners, maxPoint3, V3.dot, V3.ext_iff])
    (by norm_num [Cuboid.new, Cuboid.newImpl, Cuboid.generateCorners, maxPoint3, V3.dot, V3.ext_iff]) (one _) (by ext <;> norm_num) (by ext <;> norm_num)
  have hp0 : (shift3 0 0 0).tr.point 0 = ⟨0, 0, 0⟩ := by ext <;> simp [shift3, Dec3.tr, M3.apply]
  have hp1 : (shift3 7 0 0).tr.point 0 = ⟨7, 0, 0⟩ := by ext <;> simp [shift3, Dec3.tr, M3.apply]
  have hd : firstDirection (⟨0, 0, 0⟩ : V3 ℝ) ⟨7, 0, 0⟩ = ⟨7, 0, 0⟩ := by
    have e : (⟨7, 0, 0⟩ - ⟨0, 0, 0⟩ : V3 ℝ) = ⟨7, 0, 0⟩ := by ext <;> simp
    unfold firstDirection
    rw [e]
    dsimp only
    rw [if_neg]
    intro h; have := congrArg V3.x h; norm_num at this
  have hneg : (-⟨7, 0, 0⟩ : V3 ℝ) = ⟨-7, 0, 0⟩ := by ext <;> simp
  set A : SP (V3 ℝ) := ⟨⟨3, 0, 0⟩, ⟨5, 5, 5⟩, ⟨2, 5, 5⟩⟩ with hA
  set B : SP (V3 ℝ) := ⟨⟨-17, 0, 0⟩, ⟨-5, 5, 5⟩, ⟨12, 5, 5⟩⟩ with hB
  set C : SP (V3 ℝ) := ⟨⟨-7, 0, 0⟩, ⟨5, 5, 5⟩, ⟨12, 5, 5⟩⟩ with hC
  have r1 : ∀ d, reduce3 [A, B] d = (false, [A, B], ⟨1 / 10, 0, 0⟩) := by
    intro d
    unfold reduce3
    dsimp only
    rw [if_pos (show crossAba (A.v - B.v) (-B.v) = 0 by ext <;> norm_num [crossAba, V3.cross, hA, hB])]
    congr 2
    ext <;> norm_num [crossAba, V3.cross, hA, hB]
  have r2 : ∀ d, (reduce3 [A, B, A] d).1 = false ∧ (reduce3 [A, B, A] d).2.2 = 0 := by
    intro d
    unfold reduce3 checkSide
    dsimp only
    rw [if_neg (by norm_num [V3.cross, V3.dot, hA, hB, hC]), if_neg (by norm_num [V3.cross, V3.dot, hA, hB, hC]), if_neg (by norm_num [V3.cross, V3.dot, hA, hB, hC])]
    refine ⟨rfl, ?_⟩
    ext <;> norm_num [V3.cross, hA, hB, hC]
  unfold gjkIntersect gjkRun
  rw [hp0, hp1, hd]
  dsimp only
  rw [q0, Res.bind_ok, if_neg (by simp only [hA, Inner.dot, V3.dot]; norm_num), hneg]
  unfold gjkLoop
  rw [q1, Res.bind_ok, if_neg (by simp only [hB, Inner.dot, V3.dot]; norm_num)]
  dsimp only [List.cons_append, List.nil_append]
  rw [r1, if_neg (by simp)]
  unfold gjkLoop
  rw [q2, Res.bind_ok, if_neg (by simp only [hA, Inner.dot, V3.dot]; norm_num)]
  dsimp only [List.cons_append, List.nil_append]
  rw [(r2 _).1, (r2 _).2, if_neg (by simp)]
  unfold gjkLoop
  rw [q3, Res.bind_ok, if_pos (by simp only [hC, Inner.dot, V3.dot]; norm_num)]
  rfl
end
end Verif.Minkowski
