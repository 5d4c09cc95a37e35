import Verif.Minkowski.Tolerance
import Verif.Minkowski.Translate
import Verif.Dbvt.Binary64
import Mathlib.Tactic.IntervalCases
/-!
# GJK in rounded arithmetic on grid coordinates (C105)

The algorithms are written once more, over any type with the arithmetic operations and an order: over a field they are the model of the other files (`…G_field`), over `Fl R` every operation is rounded
(`Fl binary64` is `f64`). When all coordinates of a scene are multiples of a power of two, of at most some ten bits, no operation of GJK rounds, so GJK in `f64` answers what GJK in exact arithmetic answers.

Not in this model: NaN and the sign of zero. No operation on a scene of the theorems yields NaN, and nothing here depends on the sign of zero.
-/
namespace Verif.Minkowski
open Verif Geom Primitive
open Verif.Dbvt (Rounding F64 binary64 Rep64)
set_option linter.unusedSectionVars false

/-! ## The code over any arithmetic -/
section generic
variable {K : Type} [Add K] [Sub K] [Mul K] [Div K] [Neg K] [Zero K] [One K] [LinearOrder K]

/-- `triple_product`, `src/primitive/util.rs:42-49` -/
def tripleProductG (a b c : V2 K) : V2 K :=
  let ac := a.x * c.x + a.y * c.y
  let bc := b.x * c.x + b.y * c.y
  ⟨b.x * ac - a.x * bc, b.y * ac - a.y * bc⟩

/-- `ulps_eq!(v, Vector2::zero())`: `|v.x| ≤ eps` and `|v.y| ≤ eps` -/
def NearG2 (eps : K) (v : V2 K) : Prop := (v.x ≤ eps ∧ -v.x ≤ eps) ∧ (v.y ≤ eps ∧ -v.y ≤ eps)
instance (eps : K) (v : V2 K) : Decidable (NearG2 eps v) := by unfold NearG2; infer_instance

/-- `SimplexProcessor2::reduce_to_closest_feature`, `src/algorithm/minkowski/gjk/simplex/simplex2d.rs:23-67` -/
def reduceG2 (eps : K) (simplex : List (SP (V2 K))) (d : V2 K) : Bool × List (SP (V2 K)) × V2 K :=
  match simplex with
  | [s0, s1, s2] =>
    let a := s2.v
    let b := s1.v
    let c := s0.v
    let ao := -a
    let ab := b - a
    let ac := c - a
    let abp := tripleProductG ac ab ab
    if abp.dot ao > 0 then (false, [s1, s2], abp)
    else
      let acp := tripleProductG ab ac ac
      if acp.dot ao > 0 then (false, [s0, s2], acp) else (true, [s0, s1, s2], d)
  | [s0, s1] =>
    let a := s1.v
    let b := s0.v
    let ao := -a
    let ab := b - a
    let d := tripleProductG ab ao ab
    let d : V2 K := if NearG2 eps d then ⟨-ab.y, ab.x⟩ else d
    (false, [s0, s1], d)
  | _ => (false, simplex, d)

/-- The first direction, `src/algorithm/minkowski/gjk/mod.rs:117-122` -/
def firstDirectionG2 (eps : K) (leftPos rightPos : V2 K) : V2 K :=
  let d := rightPos - leftPos
  if NearG2 eps d then ⟨1, 1⟩ else d

/-- `GJK2::intersect`, `src/algorithm/minkowski/gjk/mod.rs:101-146` -/
def gjkRunG2 (eps : K) (maxIterations : Nat) (left right : V2 K → Res (V2 K)) (leftPos rightPos : V2 K) : Res (Out (V2 K)) := do
  let d := firstDirectionG2 eps leftPos rightPos
  let a ← SP.fromMinkowski left right d
  if Inner.dot a.v d ≤ 0 then return .miss
  else gjkLoop (reduceG2 eps) left right maxIterations [a] (-d)

/-- One step of the fold of `get_max_point`, `src/primitive/util.rs:21-27`; `none` is the initial `neg_infinity` -/
def maxStepG2 (e : V2 K) (acc : V2 K × Option K) (v : V2 K) : V2 K × Option K :=
  match acc.2 with
  | none => (v, some (v.dot e))
  | some m => if v.dot e > m then (v, some (v.dot e)) else acc
/-- `get_max_point` in the local frame, `src/primitive/util.rs:19-28` -/
def maxPointG2 (vs : List (V2 K)) (e : V2 K) : V2 K := (vs.foldl (maxStepG2 e) (0, none)).1

/-- The rotation of a `Basis2` applied to a vector (matrix times vector, by columns) -/
def applyG2 (m : M2 K) (v : V2 K) : V2 K := m.c0 * v.x + m.c1 * v.y
/-- The inverse rotation: the transpose -/
def transposeG2 (m : M2 K) : M2 K := ⟨⟨m.c0.x, m.c1.x⟩, ⟨m.c0.y, m.c1.y⟩⟩
/-- `Decomposed::transform_point` -/
def pointG2 (D : Dec2 K) (p : V2 K) : V2 K := applyG2 D.rot (p * D.scale) + D.disp
/-- `Decomposed::inverse_transform_vector` -/
def invVectorG2 (D : Dec2 K) (v : V2 K) : Option (V2 K) := if D.scale = 0 then none else some (applyG2 (transposeG2 D.rot) (v / D.scale))

/-- The polygons among the 2D primitives -/
inductive Flat2 (K : Type) where
  | particle
  | line (l : Line2 K)
  | rectangle (dimX dimY : K)
  | square (dim : K)
  | polygon (vertices : List (V2 K))

/-- `generate_corners` of the halved dimensions, `src/primitive/rectangle.rs:36-43, 55-62` -/
def cornersG (dim : V2 K) : List (V2 K) :=
  let h := dim / (1 + 1 : K)
  [⟨h.x, h.y⟩, ⟨-h.x, h.y⟩, ⟨-h.x, -h.y⟩, ⟨h.x, -h.y⟩]

/-- The local part of `support_point` of these primitives: `src/primitive/particle.rs`, `line.rs:18-23`, `rectangle.rs:71-76, 154-159`, `polygon.rs:44-49` (fewer than ten vertices) -/
def Flat2.localG : Flat2 K → V2 K → V2 K
  | .particle, _ => 0
  | .line l, e => if e.dot (l.dest - l.origin) ≥ 0 then l.dest else l.origin
  | .rectangle w h, e => maxPointG2 (cornersG ⟨w, h⟩) e
  | .square w, e => maxPointG2 (cornersG ⟨w, w⟩) e
  | .polygon vs, e => maxPointG2 vs e

/-- `Primitive2::support_point`, `src/primitive/primitive2.rs:92-104`; a particle does not look at the direction -/
def Flat2.supportG (s : Flat2 K) (D : Dec2 K) (d : V2 K) : Res (V2 K) :=
  match s with
  | .particle => .ok (pointG2 D 0)
  | s => do
    let e ← Res.ofOption (invVectorG2 D d)
    return pointG2 D (s.localG e)
end generic

/-! ## Over a field this is the model of the other files -/
section field
variable {K : Type} [Field K] [LinearOrder K] [IsStrictOrderedRing K]

theorem nearG2_field (eps : K) (v : V2 K) : NearG2 eps v ↔ Near2 eps v := by
  unfold NearG2 Near2
  rw [abs_le', abs_le']
theorem reduceG2_field (eps : K) : reduceG2 eps = reduce2T eps := by
  funext s d
  match s with
  | [] => rfl
  | [_] => rfl
  | [s0, s1] =>
    unfold reduceG2 reduce2T
    dsimp only
    simp only [nearG2_field]
    rfl
  | [_, _, _] => rfl
  | _ :: _ :: _ :: _ :: _ => rfl
/-- Over a field the run is the model with tolerance. -/
theorem gjkRunG2_field (eps : K) (n : Nat) (left right : V2 K → Res (V2 K)) (lp rp : V2 K) : gjkRunG2 eps n left right lp rp = gjkRun2T eps n left right lp rp := by
  unfold gjkRunG2 gjkRun2T firstDirectionG2 firstDirection2T
  simp only [nearG2_field, reduceG2_field]
end field

/-- The primitive of the other files. -/
noncomputable def Flat2.prim : Flat2 ℝ → Prim2
  | .particle => .particle
  | .line l => .line l
  | .rectangle w h => .rectangle (Rectangle.new w h)
  | .square w => .square (Square.new w)
  | .polygon vs => .polygon ⟨vs⟩
/-- Over the reals the support functions are those of the primitives. -/
theorem Flat2.supportG_real (s : Flat2 ℝ) (hs : ∀ vs, s = .polygon vs → vs.length < 10) (D : Dec2 ℝ) (d : V2 ℝ) : s.supportG D d = s.prim.supportPoint D.tr d := by
  cases s with
  | particle => rfl
  | line => rfl
  | rectangle => rfl
  | square => rfl
  | polygon vs =>
    show _ = Polygon.supportPoint _ _ _
    unfold Polygon.supportPoint
    rw [if_pos (hs vs rfl)]
    rfl

/-! ## Rounded arithmetic -/
noncomputable section
open Classical

/-- The numbers of a rounding, with its arithmetic. -/
def Fl {F : Type} [LinearOrder F] (_ : Rounding F) : Type := F

section rounded
variable {F : Type} [LinearOrder F] {R : Rounding F}
instance : LinearOrder (Fl R) := inferInstanceAs (LinearOrder F)
instance : Add (Fl R) := ⟨fun a b => R.add a b⟩
instance : Sub (Fl R) := ⟨fun a b => R.sub a b⟩
instance : Mul (Fl R) := ⟨fun a b => R.mul a b⟩
instance : Div (Fl R) := ⟨fun a b => R.div a b⟩
instance : Neg (Fl R) := ⟨fun a => R.rnd (-R.val a)⟩
instance : Zero (Fl R) := ⟨R.zero⟩
instance : One (Fl R) := ⟨R.one⟩

variable (R)
/-- The number nearest to a real number. -/
def toF (x : ℝ) : Fl R := R.rnd (x : EReal)
/-- The real number is representable. -/
def Rep (x : ℝ) : Prop := R.val (toF R x) = (x : EReal)
variable {R}

theorem toF_add {x y : ℝ} (hx : Rep R x) (hy : Rep R y) : toF R x + toF R y = toF R (x + y) := by
  show R.rnd (R.val (toF R x) + R.val (toF R y)) = R.rnd _
  rw [hx, hy, EReal.coe_add]
theorem toF_sub {x y : ℝ} (hx : Rep R x) (hy : Rep R y) : toF R x - toF R y = toF R (x - y) := by
  show R.rnd (R.val (toF R x) - R.val (toF R y)) = R.rnd _
  rw [hx, hy, EReal.coe_sub]
theorem toF_mul {x y : ℝ} (hx : Rep R x) (hy : Rep R y) : toF R x * toF R y = toF R (x * y) := by
  show R.rnd (R.val (toF R x) * R.val (toF R y)) = R.rnd _
  rw [hx, hy, EReal.coe_mul]
theorem toF_div {x y : ℝ} (hx : Rep R x) (hy : Rep R y) : toF R x / toF R y = toF R (x / y) := by
  show R.rnd (R.val (toF R x) / R.val (toF R y)) = R.rnd _
  rw [hx, hy, EReal.coe_div]
theorem toF_neg {x : ℝ} (hx : Rep R x) : -toF R x = toF R (-x) := by
  show R.rnd (-R.val (toF R x)) = R.rnd _
  rw [hx, EReal.coe_neg]
theorem toF_zero : toF R 0 = 0 := by
  show R.rnd _ = R.zero
  rw [EReal.coe_zero, ← R.val_zero, R.rnd_val]
theorem toF_one : toF R 1 = 1 := by
  show R.rnd _ = R.one
  rw [EReal.coe_one, ← R.val_one, R.rnd_val]
theorem rep_zero : Rep R 0 := by
  unfold Rep
  rw [toF_zero, EReal.coe_zero]
  exact R.val_zero
theorem rep_one : Rep R 1 := by
  unfold Rep
  rw [toF_one, EReal.coe_one]
  exact R.val_one
theorem toF_le {x y : ℝ} (hx : Rep R x) (hy : Rep R y) : toF R x ≤ toF R y ↔ x ≤ y := by
  rw [show (toF R x ≤ toF R y) ↔ _ from (R.val_le _ _).symm, hx, hy, EReal.coe_le_coe_iff]
theorem toF_lt {x y : ℝ} (hx : Rep R x) (hy : Rep R y) : toF R x < toF R y ↔ x < y := by
  rw [← not_le, ← not_le, toF_le hy hx]
theorem toF_inj {x y : ℝ} (hx : Rep R x) (hy : Rep R y) : toF R x = toF R y ↔ x = y := by
  rw [le_antisymm_iff, le_antisymm_iff, toF_le hx hy, toF_le hy hx]

/-! ## Multiples of a unit -/

/-- `x` is `m` times the `k`-th power of `g`, with `m` at most `B` in absolute value. -/
def Units (g : ℝ) (k : ℕ) (B : ℤ) (x : ℝ) : Prop := ∃ m : ℤ, x = g ^ k * m ∧ |m| ≤ B
variable {g : ℝ} {k l : ℕ} {B C : ℤ} {x y : ℝ}

theorem Units.add (hx : Units g k B x) (hy : Units g k C y) : Units g k (B + C) (x + y) := by
  obtain ⟨m, rfl, hm⟩ := hx
  obtain ⟨n, rfl, hn⟩ := hy
  exact ⟨m + n, by push_cast; ring, (abs_add_le m n).trans (add_le_add hm hn)⟩
theorem Units.neg (hx : Units g k B x) : Units g k B (-x) := by
  obtain ⟨m, rfl, hm⟩ := hx
  exact ⟨-m, by push_cast; ring, by rwa [abs_neg]⟩
theorem Units.sub (hx : Units g k B x) (hy : Units g k C y) : Units g k (B + C) (x - y) := by
  rw [sub_eq_add_neg]
  exact hx.add hy.neg
theorem Units.mul (hx : Units g k B x) (hy : Units g l C y) : Units g (k + l) (B * C) (x * y) := by
  obtain ⟨m, rfl, hm⟩ := hx
  obtain ⟨n, rfl, hn⟩ := hy
  refine ⟨m * n, by push_cast; ring, ?_⟩
  rw [abs_mul]
  exact mul_le_mul hm hn (abs_nonneg _) ((abs_nonneg _).trans hm)
theorem Units.mono (hx : Units g k B x) (h : B ≤ C) : Units g k C x := by
  obtain ⟨m, rfl, hm⟩ := hx
  exact ⟨m, rfl, hm.trans h⟩

variable (R) in
/-- What C105 needs of the arithmetic, the unit `g` and the size `B` of the scene: multiples of the first powers of `g` are representable as far as the numbers of GJK go, the tolerance of `ulps_eq!` is
representable and below `g` and its third power. -/
structure Exact (g : ℝ) (B : ℤ) (eps : ℝ) : Prop where
  pos : 0 < g
  one : 1 ≤ B
  rep : ∀ k m, k ≤ 4 → |m| ≤ 2048 * B ^ 4 → Rep R (g ^ k * (m : ℤ))
  eps_rep : Rep R eps
  eps_nonneg : 0 ≤ eps
  eps1 : eps < g
  eps3 : eps < g * g * g

variable {eps : ℝ}
theorem Units.rep (hE : Exact R g B eps) {C : ℤ} (hx : Units g k C x) (hk : k ≤ 4 := by omega) (hC : C ≤ 2048 * B ^ 4) : Rep R x := by
  obtain ⟨m, rfl, hm⟩ := hx
  exact hE.rep k m hk (hm.trans hC)

theorem pow_facts (h : 1 ≤ B) : B ≤ B ^ 4 ∧ B ^ 2 ≤ B ^ 4 ∧ B ^ 3 ≤ B ^ 4 ∧ 1 ≤ B ^ 4 :=
  ⟨le_self_pow₀ h (by norm_num), pow_le_pow_right₀ h (by norm_num), pow_le_pow_right₀ h (by norm_num), one_le_pow₀ h⟩

/-! ## Vectors -/

variable (R) in
/-- The vector of the nearest numbers. -/
def toV2 (v : V2 ℝ) : V2 (Fl R) := ⟨toF R v.x, toF R v.y⟩
/-- Both components are multiples. -/
def Units2 (g : ℝ) (k : ℕ) (B : ℤ) (v : V2 ℝ) : Prop := Units g k B v.x ∧ Units g k B v.y

variable {a b c : V2 ℝ}
theorem Units2.add (ha : Units2 g k B a) (hb : Units2 g k C b) : Units2 g k (B + C) (a + b) := ⟨ha.1.add hb.1, ha.2.add hb.2⟩
theorem Units2.sub (ha : Units2 g k B a) (hb : Units2 g k C b) : Units2 g k (B + C) (a - b) := ⟨ha.1.sub hb.1, ha.2.sub hb.2⟩
theorem Units2.neg (ha : Units2 g k B a) : Units2 g k B (-a) := ⟨ha.1.neg, ha.2.neg⟩
theorem Units2.mono (ha : Units2 g k B a) (h : B ≤ C) : Units2 g k C a := ⟨ha.1.mono h, ha.2.mono h⟩
theorem Units2.dot (ha : Units2 g k B a) (hb : Units2 g l C b) : Units g (k + l) (2 * (B * C)) (a.dot b) := by
  have := (ha.1.mul hb.1).add (ha.2.mul hb.2)
  rwa [← two_mul] at this

theorem toV2_add (ha : Rep R a.x ∧ Rep R a.y) (hb : Rep R b.x ∧ Rep R b.y) : toV2 R a + toV2 R b = toV2 R (a + b) := by
  ext
  · exact toF_add ha.1 hb.1
  · exact toF_add ha.2 hb.2
theorem toV2_sub (ha : Rep R a.x ∧ Rep R a.y) (hb : Rep R b.x ∧ Rep R b.y) : toV2 R a - toV2 R b = toV2 R (a - b) := by
  ext
  · exact toF_sub ha.1 hb.1
  · exact toF_sub ha.2 hb.2
theorem toV2_neg (ha : Rep R a.x ∧ Rep R a.y) : -toV2 R a = toV2 R (-a) := by
  ext
  · exact toF_neg ha.1
  · exact toF_neg ha.2
theorem toV2_zero : toV2 R 0 = 0 := by
  ext
  · exact toF_zero
  · exact toF_zero
theorem Units2.rep (hE : Exact R g B eps) {C : ℤ} (ha : Units2 g k C a) (hk : k ≤ 4 := by omega) (hC : C ≤ 2048 * B ^ 4) : Rep R a.x ∧ Rep R a.y :=
  ⟨ha.1.rep hE hk hC, ha.2.rep hE hk hC⟩

theorem toV2_dot (hE : Exact R g B eps) {C D : ℤ} (ha : Units2 g k C a) (hb : Units2 g l D b) (hk : k + l ≤ 4) (hC : C ≤ 2048 * B ^ 4) (hD : D ≤ 2048 * B ^ 4) (hCD : C * D ≤ 2048 * B ^ 4) :
    (toV2 R a).dot (toV2 R b) = toF R (a.dot b) := by
  have ra := ha.rep hE (by omega) hC
  have rb := hb.rep hE (by omega) hD
  show toF R a.x * toF R b.x + toF R a.y * toF R b.y = _
  rw [toF_mul ra.1 rb.1, toF_mul ra.2 rb.2, toF_add ((ha.1.mul hb.1).rep hE hk hCD) ((ha.2.mul hb.2).rep hE hk hCD)]
  rfl

theorem triple_units (ha : Units2 g 1 (4 * B) a) (hb : Units2 g 1 (4 * B) b) (hc : Units2 g 1 (4 * B) c) : Units2 g 3 (256 * B ^ 3) (tripleProduct a b c) := by
  have h1 := ha.dot hc
  have h2 := hb.dot hc
  constructor
  · convert (hb.1.mul h1).sub (ha.1.mul h2) using 1
    · ring
    · rfl
  · convert (hb.2.mul h1).sub (ha.2.mul h2) using 1
    · ring
    · rfl

theorem triple_toF (hE : Exact R g B eps) (ha : Units2 g 1 (4 * B) a) (hb : Units2 g 1 (4 * B) b) (hc : Units2 g 1 (4 * B) c) :
    tripleProductG (toV2 R a) (toV2 R b) (toV2 R c) = toV2 R (tripleProduct a b c) := by
  obtain ⟨f1, f2, f3, f4⟩ := pow_facts hE.one
  have hB := hE.one
  have i1 : 4 * B ≤ 2048 * B ^ 4 := by linarith
  have i2 : 4 * B * (4 * B) ≤ 2048 * B ^ 4 := by rw [show 4 * B * (4 * B) = 16 * B ^ 2 by ring]; linarith
  have i3 : 2 * (4 * B * (4 * B)) ≤ 2048 * B ^ 4 := by rw [show 2 * (4 * B * (4 * B)) = 32 * B ^ 2 by ring]; linarith
  have i4 : 4 * B * (2 * (4 * B * (4 * B))) ≤ 2048 * B ^ 4 := by rw [show 4 * B * (2 * (4 * B * (4 * B))) = 128 * B ^ 3 by ring]; linarith
  have h1 := toV2_dot hE ha hc (by norm_num) i1 i1 i2
  have h2 := toV2_dot hE hb hc (by norm_num) i1 i1 i2
  have r1 := (ha.dot hc).rep hE (by norm_num) i3
  have r2 := (hb.dot hc).rep hE (by norm_num) i3
  have ra := ha.rep hE (by norm_num) i1
  have rb := hb.rep hE (by norm_num) i1
  ext
  · show toF R b.x * (toV2 R a).dot (toV2 R c) - toF R a.x * (toV2 R b).dot (toV2 R c) = _
    rw [h1, h2, toF_mul rb.1 r1, toF_mul ra.1 r2, toF_sub ((hb.1.mul (ha.dot hc)).rep hE (by norm_num) i4) ((ha.1.mul (hb.dot hc)).rep hE (by norm_num) i4)]
    rfl
  · show toF R b.y * (toV2 R a).dot (toV2 R c) - toF R a.y * (toV2 R b).dot (toV2 R c) = _
    rw [h1, h2, toF_mul rb.2 r1, toF_mul ra.2 r2, toF_sub ((hb.2.mul (ha.dot hc)).rep hE (by norm_num) i4) ((ha.2.mul (hb.dot hc)).rep hE (by norm_num) i4)]
    rfl

/-- A direction that GJK may use. -/
def Dir2 (g : ℝ) (B : ℤ) (d : V2 ℝ) : Prop := ∃ k ≤ 3, Units2 g k (256 * B ^ 3) d

theorem Dir2.neg {d : V2 ℝ} (h : Dir2 g B d) : Dir2 g B (-d) := by
  obtain ⟨k, hk, h⟩ := h
  exact ⟨k, hk, h.neg⟩
theorem Dir2.rep (hE : Exact R g B eps) {d : V2 ℝ} (h : Dir2 g B d) : Rep R d.x ∧ Rep R d.y := by
  obtain ⟨k, hk, h⟩ := h
  obtain ⟨f1, f2, f3, f4⟩ := pow_facts hE.one
  exact h.rep hE (by omega) (by linarith)
theorem Dir2.dot (hE : Exact R g B eps) {d : V2 ℝ} (h : Dir2 g B d) (ha : Units2 g 1 (2 * B) a) :
    (toV2 R a).dot (toV2 R d) = toF R (a.dot d) ∧ Rep R (a.dot d) := by
  obtain ⟨k, hk, h⟩ := h
  obtain ⟨f1, f2, f3, f4⟩ := pow_facts hE.one
  have e : 2 * B * (256 * B ^ 3) = 512 * B ^ 4 := by ring
  refine ⟨toV2_dot hE ha h (by omega) (by linarith) (by linarith) (by linarith), (ha.dot h).rep hE (by omega) (by linarith)⟩

theorem near_toF (hE : Exact R g B eps) {v : V2 ℝ} (hv : Rep R v.x ∧ Rep R v.y) (hn : Rep R (-v.x) ∧ Rep R (-v.y)) : NearG2 (toF R eps) (toV2 R v) ↔ Near2 eps v := by
  rw [← nearG2_field]
  show (toF R v.x ≤ toF R eps ∧ -toF R v.x ≤ toF R eps) ∧ (toF R v.y ≤ toF R eps ∧ -toF R v.y ≤ toF R eps) ↔ _
  rw [toF_neg hv.1, toF_neg hv.2, toF_le hv.1 hE.eps_rep, toF_le hv.2 hE.eps_rep, toF_le hn.1 hE.eps_rep, toF_le hn.2 hE.eps_rep]
  rfl

variable (R) in
/-- The support point in rounded numbers. -/
def spF (p : SP (V2 ℝ)) : SP (V2 (Fl R)) := ⟨toV2 R p.v, toV2 R p.supA, toV2 R p.supB⟩

theorem reduce_toF (hE : Exact R g B eps) {s : List (SP (V2 ℝ))} (hs : ∀ p ∈ s, Units2 g 1 (2 * B) p.v) (d : V2 ℝ) :
    reduceG2 (toF R eps) (s.map (spF R)) (toV2 R d) = ((reduce2T eps s d).1, (reduce2T eps s d).2.1.map (spF R), toV2 R (reduce2T eps s d).2.2) := by
  obtain ⟨f1, f2, f3, f4⟩ := pow_facts hE.one
  have hB := hE.one
  have i0 : 2 * B ≤ 2048 * B ^ 4 := by linarith
  have i1 : 4 * B ≤ 2048 * B ^ 4 := by linarith
  have i3 : 256 * B ^ 3 ≤ 2048 * B ^ 4 := by linarith
  have hsub : ∀ {p q : V2 ℝ}, Units2 g 1 (2 * B) p → Units2 g 1 (2 * B) q → Units2 g 1 (4 * B) (p - q) ∧ toV2 R p - toV2 R q = toV2 R (p - q) := by
    intro p q hp hq
    refine ⟨(hp.sub hq).mono (by linarith), toV2_sub (hp.rep hE (by norm_num) i0) (hq.rep hE (by norm_num) i0)⟩
  match s with
  | [] => rfl
  | [_] => rfl
  | [s0, s1] =>
    have u0 := hs s0 (by simp)
    have u1 := hs s1 (by simp)
    obtain ⟨uab, eab⟩ := hsub u0 u1
    have eao := toV2_neg (u1.rep hE (by norm_num) i0)
    have ht := triple_toF hE uab (u1.neg.mono (by linarith)) uab
    have ut := triple_units uab (u1.neg.mono (by linarith : 2 * B ≤ 4 * B)) uab
    have hnear := near_toF hE (ut.rep hE (by norm_num) i3) (ut.neg.rep hE (by norm_num) i3)
    show (false, [spF R s0, spF R s1], if NearG2 (toF R eps) (tripleProductG (toV2 R s0.v - toV2 R s1.v) (-toV2 R s1.v) (toV2 R s0.v - toV2 R s1.v))
      then (⟨-(toV2 R s0.v - toV2 R s1.v).y, (toV2 R s0.v - toV2 R s1.v).x⟩ : V2 (Fl R)) else tripleProductG (toV2 R s0.v - toV2 R s1.v) (-toV2 R s1.v) (toV2 R s0.v - toV2 R s1.v)) = _
    rw [eab, eao, ht, if_congr hnear rfl rfl]
    unfold reduce2T
    dsimp only
    congr 2
    split
    · ext
      · exact toF_neg (uab.rep hE (by norm_num) i1).2
      · rfl
    · rfl
  | [s0, s1, s2] =>
    have u0 := hs s0 (by simp)
    have u1 := hs s1 (by simp)
    have u2 := hs s2 (by simp)
    obtain ⟨uab, eab⟩ := hsub u1 u2
    obtain ⟨uac, eac⟩ := hsub u0 u2
    have eao := toV2_neg (u2.rep hE (by norm_num) i0)
    have ht1 := triple_toF hE uac uab uab
    have ut1 := triple_units uac uab uab
    have ht2 := triple_toF hE uab uac uac
    have ut2 := triple_units uab uac uac
    have j : 256 * B ^ 3 * (2 * B) ≤ 2048 * B ^ 4 := by rw [show 256 * B ^ 3 * (2 * B) = 512 * B ^ 4 by ring]; linarith
    have j' : 2 * (256 * B ^ 3 * (2 * B)) ≤ 2048 * B ^ 4 := by rw [show 2 * (256 * B ^ 3 * (2 * B)) = 1024 * B ^ 4 by ring]; linarith
    have hd1 := toV2_dot hE ut1 u2.neg (by norm_num) i3 i0 j
    have hd2 := toV2_dot hE ut2 u2.neg (by norm_num) i3 i0 j
    have r1 := (ut1.dot u2.neg).rep hE (by norm_num) j'
    have r2 := (ut2.dot u2.neg).rep hE (by norm_num) j'
    show reduceG2 (toF R eps) [spF R s0, spF R s1, spF R s2] (toV2 R d) = ((reduce2 [s0, s1, s2] d).1, (reduce2 [s0, s1, s2] d).2.1.map (spF R), toV2 R (reduce2 [s0, s1, s2] d).2.2)
    unfold reduceG2 reduce2
    dsimp only [spF]
    rw [eab, eac, eao, ht1, ht2, hd1, hd2, ← toF_zero]
    simp only [gt_iff_lt, toF_lt rep_zero r1, toF_lt rep_zero r2]
    by_cases c1 : 0 < (tripleProduct (s0.v - s2.v) (s1.v - s2.v) (s1.v - s2.v)).dot (-s2.v)
    · rw [if_pos c1, if_pos c1]
      rfl
    · rw [if_neg c1, if_neg c1]
      by_cases c2 : 0 < (tripleProduct (s1.v - s2.v) (s0.v - s2.v) (s0.v - s2.v)).dot (-s2.v)
      · rw [if_pos c2, if_pos c2]
        rfl
      · rw [if_neg c2, if_neg c2]
        rfl
  | _ :: _ :: _ :: _ :: _ => rfl

theorem reduce_dir {s : List (SP (V2 ℝ))} (hB : 1 ≤ B) (hs : ∀ p ∈ s, Units2 g 1 (2 * B) p.v) {d : V2 ℝ} (hd : Dir2 g B d) : Dir2 g B (reduce2T eps s d).2.2 := by
  have f1 : B ≤ B ^ 3 := le_self_pow₀ hB (by norm_num)
  have hsub : ∀ {p q : V2 ℝ}, Units2 g 1 (2 * B) p → Units2 g 1 (2 * B) q → Units2 g 1 (4 * B) (p - q) := fun hp hq => (hp.sub hq).mono (by linarith)
  match s with
  | [] => exact hd
  | [_] => exact hd
  | [s0, s1] =>
    have u0 := hs s0 (by simp)
    have u1 := hs s1 (by simp)
    have uab := hsub u0 u1
    unfold reduce2T
    dsimp only
    split
    · exact ⟨1, by norm_num, (uab.2.neg.mono (by linarith)), (uab.1.mono (by linarith))⟩
    · exact ⟨3, le_refl _, triple_units uab (u1.neg.mono (by linarith)) uab⟩
  | [s0, s1, s2] =>
    have u0 := hs s0 (by simp)
    have u1 := hs s1 (by simp)
    have u2 := hs s2 (by simp)
    show Dir2 g B (reduce2 [s0, s1, s2] d).2.2
    unfold reduce2
    dsimp only
    split
    · exact ⟨3, le_refl _, triple_units (hsub u0 u2) (hsub u1 u2) (hsub u1 u2)⟩
    · split
      · exact ⟨3, le_refl _, triple_units (hsub u1 u2) (hsub u0 u2) (hsub u0 u2)⟩
      · exact hd
  | _ :: _ :: _ :: _ :: _ => exact hd

/-- The answer in rounded numbers. -/
def outF : Out (V2 ℝ) → Out (V2 (Fl R))
  | .hit s => .hit (s.map (spF R))
  | .miss => .miss
  | .exhausted => .exhausted

/-- A support function whose rounded version finds the same points, all of them multiples of the unit. -/
structure Follows (R : Rounding F) (g : ℝ) (B : ℤ) (left : V2 ℝ → Res (V2 ℝ)) (leftF : V2 (Fl R) → Res (V2 (Fl R))) : Prop where
  same : ∀ d, Dir2 g B d → leftF (toV2 R d) = (left d).mapOk (toV2 R)
  units : ∀ d p, left d = .ok p → Units2 g 1 B p

theorem mink_toF (hE : Exact R g B eps) {left right : V2 ℝ → Res (V2 ℝ)} {leftF rightF : V2 (Fl R) → Res (V2 (Fl R))} (hl : Follows R g B left leftF) (hr : Follows R g B right rightF) {d : V2 ℝ}
    (hd : Dir2 g B d) : SP.fromMinkowski leftF rightF (toV2 R d) = (SP.fromMinkowski left right d).mapOk (spF R) ∧ ∀ a, SP.fromMinkowski left right d = .ok a → Units2 g 1 (2 * B) a.v := by
  unfold SP.fromMinkowski
  rw [toV2_neg (hd.rep hE), hl.same d hd, hr.same _ hd.neg]
  cases h1 : left d with
  | panic => exact ⟨rfl, nofun⟩
  | timeout => exact ⟨rfl, nofun⟩
  | ok p =>
    cases h2 : right (-d) with
    | panic => exact ⟨rfl, nofun⟩
    | timeout => exact ⟨rfl, nofun⟩
    | ok q =>
      have up := hl.units _ _ h1
      have uq := hr.units _ _ h2
      obtain ⟨f1, f2, f3, f4⟩ := pow_facts hE.one
      constructor
      · show Res.ok (⟨toV2 R p - toV2 R q, toV2 R p, toV2 R q⟩ : SP (V2 (Fl R))) = .ok (spF R ⟨p - q, p, q⟩)
        rw [toV2_sub (up.rep hE (by norm_num) (by linarith)) (uq.rep hE (by norm_num) (by linarith))]
        rfl
      · intro a ha
        change Res.ok (⟨p - q, p, q⟩ : SP (V2 ℝ)) = .ok a at ha
        injection ha with ha
        subst ha
        exact (up.sub uq).mono (by linarith)

theorem reduce2T_keeps (s : List (SP (V2 ℝ))) (d : V2 ℝ) : ∀ p ∈ (reduce2T eps s d).2.1, p ∈ s := by
  match s with
  | [] => exact fun p hp => hp
  | [_] => exact fun p hp => hp
  | [_, _] => exact fun p hp => hp
  | [s0, s1, s2] => exact reduce2_keeps [s0, s1, s2] d
  | _ :: _ :: _ :: _ :: _ => exact fun p hp => hp

theorem loop_toF (hE : Exact R g B eps) {left right : V2 ℝ → Res (V2 ℝ)} {leftF rightF : V2 (Fl R) → Res (V2 (Fl R))} (hl : Follows R g B left leftF) (hr : Follows R g B right rightF) :
    ∀ n s d, (∀ p ∈ s, Units2 g 1 (2 * B) p.v) → Dir2 g B d →
      gjkLoop (reduceG2 (toF R eps)) leftF rightF n (s.map (spF R)) (toV2 R d) = (gjkLoop (reduce2T eps) left right n s d).mapOk outF
  | 0, _, _, _, _ => rfl
  | n + 1, s, d, hs, hd => by
    obtain ⟨h1, h2⟩ := mink_toF hE hl hr hd
    unfold gjkLoop
    rw [h1]
    cases ha : SP.fromMinkowski left right d with
    | panic => rfl
    | timeout => rfl
    | ok a =>
      have ua := h2 a ha
      obtain ⟨e1, e2⟩ := hd.dot hE ua
      have hs' : ∀ p ∈ s ++ [a], Units2 g 1 (2 * B) p.v := by
        intro p hp
        rcases List.mem_append.1 hp with h | h
        · exact hs p h
        · rw [List.mem_singleton.1 h]; exact ua
      have em : s.map (spF R) ++ [spF R a] = (s ++ [a]).map (spF R) := by simp
      have hred := reduce_toF hE hs' d
      show (if Inner.dot (spF R a).v (toV2 R d) ≤ 0 then _ else _) = Res.mapOk outF (if Inner.dot a.v d ≤ 0 then _ else _)
      have ec : Inner.dot (spF R a).v (toV2 R d) ≤ 0 ↔ Inner.dot a.v d ≤ 0 := by
        show (toV2 R a.v).dot (toV2 R d) ≤ 0 ↔ a.v.dot d ≤ 0
        rw [e1, ← toF_zero, toF_le e2 rep_zero]
      rw [if_congr ec rfl rfl]
      split
      · rfl
      · rw [em, hred]
        dsimp only
        cases hb : (reduce2T eps (s ++ [a]) d).1
        · have := loop_toF hE hl hr n (reduce2T eps (s ++ [a]) d).2.1 (reduce2T eps (s ++ [a]) d).2.2 (fun p hp => hs' p (reduce2T_keeps _ _ p hp)) (reduce_dir hE.one hs' hd)
          simpa using this
        · rfl

/-- **C105, any shapes on a grid, 2D**: when the points that the support functions answer are multiples of the unit and rounding does not change which points they answer, GJK in rounded arithmetic answers
what GJK in exact arithmetic answers. -/
theorem c105_run_2d (hE : Exact R g B eps) {left right : V2 ℝ → Res (V2 ℝ)} {leftF rightF : V2 (Fl R) → Res (V2 (Fl R))} (hl : Follows R g B left leftF) (hr : Follows R g B right rightF)
    {lp rp : V2 ℝ} (hlp : Units2 g 1 B lp) (hrp : Units2 g 1 B rp) (n : Nat) :
    gjkRunG2 (toF R eps) n leftF rightF (toV2 R lp) (toV2 R rp) = (gjkRun reduce2 n left right lp rp).mapOk outF := by
  obtain ⟨f1, f2, f3, f4⟩ := pow_facts hE.one
  have hB := hE.one
  have f5 : B ≤ B ^ 3 := le_self_pow₀ hB (by norm_num)
  have ud := hrp.sub hlp
  have rd := ud.rep hE (by norm_num) (by linarith)
  have rd' := ud.neg.rep hE (by norm_num) (by linarith)
  have grid : ∀ {p : V2 ℝ}, Units2 g 1 B p → OnGrid2 g p := by
    rintro p ⟨⟨i, hi, -⟩, ⟨j, hj, -⟩⟩
    exact ⟨i, j, by ext <;> simp [hi, hj]⟩
  rw [← c104_grid_2d_partial hE.pos hE.eps_nonneg hE.eps1 hE.eps3 (fun d p h => grid (hl.units d p h)) (fun d p h => grid (hr.units d p h)) (grid hlp) (grid hrp)]
  have efd : firstDirectionG2 (toF R eps) (toV2 R lp) (toV2 R rp) = toV2 R (firstDirection2T eps lp rp) := by
    unfold firstDirectionG2 firstDirection2T
    dsimp only
    rw [toV2_sub (hrp.rep hE (by norm_num) (by linarith)) (hlp.rep hE (by norm_num) (by linarith)), if_congr (near_toF hE rd rd') rfl rfl]
    split
    · rw [← toF_one]; rfl
    · rfl
  have hd : Dir2 g B (firstDirection2T eps lp rp) := by
    unfold firstDirection2T
    dsimp only
    split
    · refine ⟨0, by norm_num, ⟨1, by simp, ?_⟩, ⟨1, by simp, ?_⟩⟩ <;> norm_num <;> linarith
    · exact ⟨1, by norm_num, ud.mono (by linarith)⟩
  obtain ⟨h1, h2⟩ := mink_toF hE hl hr hd
  unfold gjkRunG2 gjkRun2T
  dsimp only
  rw [efd, h1]
  cases ha : SP.fromMinkowski left right (firstDirection2T eps lp rp) with
  | panic => rfl
  | timeout => rfl
  | ok a =>
    have ua := h2 a ha
    obtain ⟨e1, e2⟩ := hd.dot hE ua
    have ec : Inner.dot (spF R a).v (toV2 R (firstDirection2T eps lp rp)) ≤ 0 ↔ Inner.dot a.v (firstDirection2T eps lp rp) ≤ 0 := by
      show (toV2 R a.v).dot (toV2 R _) ≤ 0 ↔ a.v.dot _ ≤ 0
      rw [e1, ← toF_zero, toF_le e2 rep_zero]
    show (if Inner.dot (spF R a).v (toV2 R (firstDirection2T eps lp rp)) ≤ 0 then _ else _) = Res.mapOk outF (if Inner.dot a.v (firstDirection2T eps lp rp) ≤ 0 then _ else _)
    rw [if_congr ec rfl rfl]
    split
    · rfl
    · rw [toV2_neg (hd.rep hE)]
      exact loop_toF hE hl hr n [a] _ (by simpa using ua) hd.neg

/-! ## The primitives -/

/-- A rotation by quarter turns, possibly with a reflection: the matrix has one entry `1` or `-1` in each row and column. -/
def Turn2 (m : M2 ℝ) : Prop := ∃ a b : ℝ, (a = 1 ∨ a = -1) ∧ (b = 1 ∨ b = -1) ∧ (m = ⟨⟨a, 0⟩, ⟨0, b⟩⟩ ∨ m = ⟨⟨0, a⟩, ⟨b, 0⟩⟩)
/-- A transform that keeps the grid: no scaling, quarter turns, a displacement on the grid. -/
structure Keeps (g : ℝ) (A : ℤ) (D : Dec2 ℝ) : Prop where
  scale : D.scale = 1
  rot : Turn2 D.rot
  disp : Units2 g 1 A D.disp
/-- The coordinates of the shape are multiples of the unit; half of the sides of rectangles and squares are. Polygons have between one and nine vertices. -/
def Flat2.OnGrid (g : ℝ) (A : ℤ) : Flat2 ℝ → Prop
  | .particle => True
  | .line l => Units2 g 1 A l.origin ∧ Units2 g 1 A l.dest
  | .rectangle w h => 0 ≤ w ∧ 0 ≤ h ∧ Units g 1 A (w / 2) ∧ Units g 1 A (h / 2)
  | .square w => 0 ≤ w ∧ Units g 1 A (w / 2)
  | .polygon vs => vs ≠ [] ∧ vs.length < 10 ∧ ∀ v ∈ vs, Units2 g 1 A v

variable (R) in
/-- The shape in rounded numbers. -/
def Flat2.toFl : Flat2 ℝ → Flat2 (Fl R)
  | .particle => .particle
  | .line l => .line ⟨toV2 R l.origin, toV2 R l.dest⟩
  | .rectangle w h => .rectangle (toF R w) (toF R h)
  | .square w => .square (toF R w)
  | .polygon vs => .polygon (vs.map (toV2 R))
variable (R) in
/-- The transform in rounded numbers. -/
def decF (D : Dec2 ℝ) : Dec2 (Fl R) := ⟨toF R D.scale, ⟨toV2 R D.rot.c0, toV2 R D.rot.c1⟩, toV2 R D.disp⟩

theorem turn_units {m : M2 ℝ} (h : Turn2 m) (g : ℝ) : Units2 g 0 1 m.c0 ∧ Units2 g 0 1 m.c1 := by
  have h0 : Units g 0 1 0 := ⟨0, by simp, by norm_num⟩
  have h1 : ∀ a : ℝ, (a = 1 ∨ a = -1) → Units g 0 1 a := by
    rintro a (rfl | rfl)
    · exact ⟨1, by simp, by norm_num⟩
    · exact ⟨-1, by simp, by norm_num⟩
  obtain ⟨a, b, ha, hb, rfl | rfl⟩ := h
  · exact ⟨⟨h1 a ha, h0⟩, ⟨h0, h1 b hb⟩⟩
  · exact ⟨⟨h0, h1 a ha⟩, ⟨h1 b hb, h0⟩⟩
theorem turn_transpose {m : M2 ℝ} (h : Turn2 m) : Turn2 (transposeG2 m) := by
  obtain ⟨a, b, ha, hb, rfl | rfl⟩ := h
  · exact ⟨a, b, ha, hb, Or.inl rfl⟩
  · exact ⟨b, a, hb, ha, Or.inr rfl⟩
theorem turn_apply {m : M2 ℝ} (h : Turn2 m) {v : V2 ℝ} (hv : Units2 g k C v) : Units2 g k C (applyG2 m v) := by
  have h1 : ∀ (a : ℝ) {x : ℝ}, (a = 1 ∨ a = -1) → Units g k C x → Units g k C (a * x) := by
    rintro a x (rfl | rfl) hx
    · rwa [one_mul]
    · rw [neg_one_mul]; exact hx.neg
  obtain ⟨a, b, ha, hb, rfl | rfl⟩ := h
  · exact ⟨by simpa [applyG2] using h1 a ha hv.1, by simpa [applyG2] using h1 b hb hv.2⟩
  · exact ⟨by simpa [applyG2] using h1 b hb hv.2, by simpa [applyG2] using h1 a ha hv.1⟩
theorem turn_orthogonal {m : M2 ℝ} (h : Turn2 m) : m.Orthogonal := by
  obtain ⟨a, b, ha, hb, rfl | rfl⟩ := h <;> rcases ha with rfl | rfl <;> rcases hb with rfl | rfl <;> simp [M2.Orthogonal, V2.dot]

theorem apply_toF (hE : Exact R g B eps) {m : M2 ℝ} (hm : Units2 g 0 1 m.c0 ∧ Units2 g 0 1 m.c1) {v : V2 ℝ} (hv : Units2 g k C v) (hk : k ≤ 4) (hC : C ≤ 2048 * B ^ 4) :
    applyG2 (⟨toV2 R m.c0, toV2 R m.c1⟩ : M2 (Fl R)) (toV2 R v) = toV2 R (applyG2 m v) := by
  obtain ⟨f1, f2, f3, f4⟩ := pow_facts hE.one
  have r0 := hm.1.rep hE (by norm_num) (by linarith)
  have r1 := hm.2.rep hE (by norm_num) (by linarith)
  have rv := hv.rep hE hk hC
  have hk' : 0 + k ≤ 4 := by omega
  have hC' : 1 * C ≤ 2048 * B ^ 4 := by rwa [one_mul]
  ext
  · show toF R m.c0.x * toF R v.x + toF R m.c1.x * toF R v.y = _
    rw [toF_mul r0.1 rv.1, toF_mul r1.1 rv.2, toF_add ((hm.1.1.mul hv.1).rep hE hk' hC') ((hm.2.1.mul hv.2).rep hE hk' hC')]
    rfl
  · show toF R m.c0.y * toF R v.x + toF R m.c1.y * toF R v.y = _
    rw [toF_mul r0.2 rv.1, toF_mul r1.2 rv.2, toF_add ((hm.1.2.mul hv.1).rep hE hk' hC') ((hm.2.2.mul hv.2).rep hE hk' hC')]
    rfl

variable {A : ℤ}
theorem point_units {D : Dec2 ℝ} (hD : Keeps g A D) {p : V2 ℝ} (hp : Units2 g 1 A p) : Units2 g 1 (2 * A) (pointG2 D p) := by
  unfold pointG2
  rw [hD.scale, show p * (1 : ℝ) = p by ext <;> simp]
  exact ((turn_apply hD.rot hp).add hD.disp).mono (by linarith)
theorem point_toF (hE : Exact R g (2 * A) eps) {D : Dec2 ℝ} (hD : Keeps g A D) {p : V2 ℝ} (hp : Units2 g 1 A p) : pointG2 (decF R D) (toV2 R p) = toV2 R (pointG2 D p) := by
  obtain ⟨f1, f2, f3, f4⟩ := pow_facts hE.one
  have hA := hE.one
  have rp := hp.rep hE (by norm_num) (by linarith)
  have e : toV2 R p * (decF R D).scale = toV2 R p := by
    show toV2 R p * toF R D.scale = _
    rw [hD.scale]
    ext
    · show toF R p.x * toF R 1 = _
      rw [toF_mul rp.1 rep_one, mul_one]; rfl
    · show toF R p.y * toF R 1 = _
      rw [toF_mul rp.2 rep_one, mul_one]; rfl
  have e' : p * D.scale = p := by rw [hD.scale]; ext <;> simp
  unfold pointG2
  rw [e, e']
  have := apply_toF hE (turn_units hD.rot g) hp (by norm_num) (by linarith)
  show applyG2 (⟨toV2 R D.rot.c0, toV2 R D.rot.c1⟩ : M2 (Fl R)) (toV2 R p) + toV2 R D.disp = _
  rw [this, toV2_add ((turn_apply hD.rot hp).rep hE (by norm_num) (by linarith)) (hD.disp.rep hE (by norm_num) (by linarith))]

theorem inv_toF (hE : Exact R g B eps) {D : Dec2 ℝ} (hD : Keeps g A D) {d : V2 ℝ} (hd : Dir2 g B d) :
    ∃ e, Dir2 g B e ∧ invVectorG2 D d = some e ∧ invVectorG2 (decF R D) (toV2 R d) = some (toV2 R e) := by
  have rd := hd.rep hE
  obtain ⟨k, hk, ud⟩ := hd
  obtain ⟨f1, f2, f3, f4⟩ := pow_facts hE.one
  refine ⟨applyG2 (transposeG2 D.rot) d, ⟨k, hk, turn_apply (turn_transpose hD.rot) ud⟩, ?_, ?_⟩
  · unfold invVectorG2
    rw [hD.scale, if_neg one_ne_zero, show d / (1 : ℝ) = d by ext <;> simp]
  · unfold invVectorG2
    have hs : (decF R D).scale = 1 := by
      show toF R D.scale = 1
      rw [hD.scale, toF_one]
    have hne : (1 : Fl R) ≠ 0 := by
      rw [← toF_one, ← toF_zero]
      exact fun h => one_ne_zero ((toF_inj rep_one rep_zero).1 h)
    have e : toV2 R d / (1 : Fl R) = toV2 R d := by
      rw [← toF_one]
      ext
      · show toF R d.x / toF R 1 = _
        rw [toF_div rd.1 rep_one, div_one]; rfl
      · show toF R d.y / toF R 1 = _
        rw [toF_div rd.2 rep_one, div_one]; rfl
    rw [hs, if_neg hne, e]
    exact congrArg some (apply_toF hE (turn_units (turn_transpose hD.rot) g) ud (by omega) (by linarith))

theorem maxPoint_toF (hE : Exact R g B eps) {vs : List (V2 ℝ)} (hv : ∀ v ∈ vs, Units2 g 1 (2 * B) v) {e : V2 ℝ} (he : Dir2 g B e) :
    maxPointG2 (vs.map (toV2 R)) (toV2 R e) = toV2 R (maxPointG2 vs e) := by
  unfold maxPointG2
  rw [List.foldl_map]
  suffices h : ∀ (vs : List (V2 ℝ)) (p : V2 ℝ) (m : Option ℝ), (∀ v ∈ vs, Units2 g 1 (2 * B) v) → (∀ x, m = some x → Rep R x) →
      vs.foldl (fun acc v => maxStepG2 (toV2 R e) acc (toV2 R v)) (toV2 R p, m.map (toF R)) =
      ((toV2 R (vs.foldl (maxStepG2 e) (p, m)).1), (vs.foldl (maxStepG2 e) (p, m)).2.map (toF R)) by
    have := h vs 0 none hv nofun
    rw [toV2_zero] at this
    exact congrArg Prod.fst this
  intro vs
  induction vs with
  | nil => intros; rfl
  | cons v vs ih =>
    intro p m hv hm
    obtain ⟨e1, e2⟩ := he.dot hE (hv v (by simp))
    have hv' : ∀ w ∈ vs, Units2 g 1 (2 * B) w := fun w hw => hv w (List.mem_cons_of_mem _ hw)
    have hsome : ∀ x, some (v.dot e) = some x → Rep R x := by
      intro x hx
      injection hx with hx
      rwa [← hx]
    rw [List.foldl_cons, List.foldl_cons]
    cases m with
    | none =>
      show List.foldl _ (toV2 R v, some ((toV2 R v).dot (toV2 R e))) vs = _
      rw [e1]
      exact ih v (some (v.dot e)) hv' hsome
    | some x =>
      have ec : toF R (v.dot e) > toF R x ↔ v.dot e > x := toF_lt (hm x rfl) e2
      show List.foldl _ (if (toV2 R v).dot (toV2 R e) > toF R x then (toV2 R v, some ((toV2 R v).dot (toV2 R e))) else (toV2 R p, some (toF R x))) vs = _
      rw [e1]
      by_cases hc : v.dot e > x
      · rw [if_pos (ec.2 hc), show maxStepG2 e (p, some x) v = (v, some (v.dot e)) from if_pos hc]
        exact ih v (some (v.dot e)) hv' hsome
      · rw [if_neg (fun h => hc (ec.1 h)), show maxStepG2 e (p, some x) v = (p, some x) from if_neg hc]
        exact ih p (some x) hv' hm

theorem corners_toF (hE : Exact R g (2 * A) eps) {w h : ℝ} (hw : Units g 1 A (w / 2)) (hh : Units g 1 A (h / 2)) :
    cornersG (⟨toF R w, toF R h⟩ : V2 (Fl R)) = (cornersG (⟨w, h⟩ : V2 ℝ)).map (toV2 R) ∧ ∀ v ∈ cornersG (⟨w, h⟩ : V2 ℝ), Units2 g 1 A v := by
  obtain ⟨f1, f2, f3, f4⟩ := pow_facts hE.one
  have hA := hE.one
  have e2 : (1 : Fl R) + 1 = toF R 2 := by
    rw [← toF_one, toF_add rep_one rep_one]
    norm_num
  have r2 : Rep R 2 := by
    have : Units g 0 2 2 := ⟨2, by simp, by norm_num⟩
    exact this.rep hE (by norm_num) (by linarith)
  have dbl : ∀ {x : ℝ}, Units g 1 A (x / 2) → Rep R x := by
    intro x hx
    have := hx.add hx
    rw [add_halves] at this
    exact this.rep hE (by norm_num) (by linarith)
  have rw' := hw.rep hE (by norm_num) (by linarith)
  have rh := hh.rep hE (by norm_num) (by linarith)
  constructor
  · unfold cornersG
    dsimp only [V2.div_x, V2.div_y]
    rw [e2, toF_div (dbl hw) r2, toF_div (dbl hh) r2, toF_neg rw', toF_neg rh]
    norm_num [toV2]
  · unfold cornersG
    norm_num
    exact ⟨⟨hw, hh⟩, ⟨hw.neg, hh⟩, ⟨hw.neg, hh.neg⟩, ⟨hw, hh.neg⟩⟩

theorem maxPointG2_mem {vs : List (V2 ℝ)} (h : vs ≠ []) (e : V2 ℝ) : maxPointG2 vs e ∈ vs := (maxPoint2_spec vs e h).1

theorem local_toF (hE : Exact R g (2 * A) eps) {s : Flat2 ℝ} (hs : s.OnGrid g A) {e : V2 ℝ} (he : Dir2 g (2 * A) e) :
    (s.toFl R).localG (toV2 R e) = toV2 R (s.localG e) := by
  obtain ⟨f1, f2, f3, f4⟩ := pow_facts hE.one
  have hA := hE.one
  have wide : ∀ {v : V2 ℝ}, Units2 g 1 A v → Units2 g 1 (2 * (2 * A)) v := fun h => h.mono (by linarith)
  cases s with
  | particle => exact toV2_zero.symm
  | line l =>
    obtain ⟨ho, hd⟩ := hs
    obtain ⟨k, hk, ue⟩ := he
    have ul := hd.sub ho
    have j : 256 * (2 * A) ^ 3 * (A + A) = 256 * (2 * A) ^ 4 := by ring
    have j' : 2 * (256 * (2 * A) ^ 3 * (A + A)) = 512 * (2 * A) ^ 4 := by ring
    have hdot := toV2_dot hE ue ul (by omega) (by linarith) (by linarith) (by linarith)
    have rdot := (ue.dot ul).rep hE (by omega) (by linarith)
    show (if (toV2 R e).dot (toV2 R l.dest - toV2 R l.origin) ≥ 0 then toV2 R l.dest else toV2 R l.origin) = toV2 R (if e.dot (l.dest - l.origin) ≥ 0 then l.dest else l.origin)
    rw [toV2_sub (hd.rep hE (by norm_num) (by linarith)) (ho.rep hE (by norm_num) (by linarith)), hdot, ← toF_zero]
    by_cases hc : e.dot (l.dest - l.origin) ≥ 0
    · rw [if_pos hc, if_pos ((toF_le rep_zero rdot).2 hc)]
    · rw [if_neg hc, if_neg (fun h => hc ((toF_le rep_zero rdot).1 h))]
  | rectangle w h =>
    obtain ⟨-, -, hw, hh⟩ := hs
    obtain ⟨h1, h2⟩ := corners_toF hE hw hh
    show maxPointG2 (cornersG ⟨toF R w, toF R h⟩) _ = _
    rw [h1, maxPoint_toF hE (fun v hv => wide (h2 v hv)) he]
    rfl
  | square w =>
    obtain ⟨-, hw⟩ := hs
    obtain ⟨h1, h2⟩ := corners_toF hE hw hw
    show maxPointG2 (cornersG ⟨toF R w, toF R w⟩) _ = _
    rw [h1, maxPoint_toF hE (fun v hv => wide (h2 v hv)) he]
    rfl
  | polygon vs =>
    obtain ⟨-, -, hv⟩ := hs
    exact maxPoint_toF hE (fun v h => wide (hv v h)) he

theorem local_units (hE : Exact R g (2 * A) eps) {s : Flat2 ℝ} (hs : s.OnGrid g A) (e : V2 ℝ) : Units2 g 1 A (s.localG e) := by
  have hA := hE.one
  cases s with
  | particle => exact ⟨⟨0, by simp [Flat2.localG], by simp; omega⟩, ⟨0, by simp [Flat2.localG], by simp; omega⟩⟩
  | line l =>
    obtain ⟨ho, hd⟩ := hs
    show Units2 g 1 A (if e.dot (l.dest - l.origin) ≥ 0 then l.dest else l.origin)
    split
    · exact hd
    · exact ho
  | rectangle w h => exact (corners_toF hE hs.2.2.1 hs.2.2.2).2 _ (maxPointG2_mem (by simp [cornersG]) e)
  | square w => exact (corners_toF hE hs.2 hs.2).2 _ (maxPointG2_mem (by simp [cornersG]) e)
  | polygon vs => exact hs.2.2 _ (maxPointG2_mem hs.1 e)

theorem supportG_eq {K : Type} [Add K] [Sub K] [Mul K] [Div K] [Neg K] [Zero K] [One K] [LinearOrder K] (s : Flat2 K) (D : Dec2 K) {d e : V2 K} (h : invVectorG2 D d = some e) :
    s.supportG D d = .ok (pointG2 D (s.localG e)) := by
  cases s <;> simp [Flat2.supportG, Flat2.localG, h]

theorem flat_follows (hE : Exact R g (2 * A) eps) {s : Flat2 ℝ} (hs : s.OnGrid g A) {D : Dec2 ℝ} (hD : Keeps g A D) :
    Follows R g (2 * A) (s.supportG D) ((s.toFl R).supportG (decF R D)) := by
  constructor
  · intro d hd
    obtain ⟨e, he, h1, h2⟩ := inv_toF hE hD hd
    rw [supportG_eq _ _ h1, supportG_eq _ _ h2, local_toF hE hs he, point_toF hE hD (local_units hE hs e)]
    rfl
  · intro d p hp
    have h1 : invVectorG2 D d = some (applyG2 (transposeG2 D.rot) (d / D.scale)) := by
      unfold invVectorG2
      rw [if_neg (by rw [hD.scale]; norm_num)]
    rw [supportG_eq _ _ h1] at hp
    injection hp with hp
    rw [← hp]
    exact point_units hD (local_units hE hs _)

/-- the `Option` that `GJK2::intersect` returns, `src/algorithm/minkowski/gjk/mod.rs:101-146` -/
def gjkIntersectG2 {K : Type} [Add K] [Sub K] [Mul K] [Div K] [Neg K] [Zero K] [One K] [LinearOrder K] (eps : K) (maxIterations : Nat) (left right : V2 K → Res (V2 K)) (leftPos rightPos : V2 K) :
    Res (Option (List (SP (V2 K)))) := do
  let o ← gjkRunG2 eps maxIterations left right leftPos rightPos
  return o.toOption

theorem flat_ok {s : Flat2 ℝ} (hs : s.OnGrid g A) : s.prim.Ok := by
  cases s with
  | particle => trivial
  | line => trivial
  | rectangle w h => exact ⟨w, h, hs.1, hs.2.1, rfl⟩
  | square w => exact ⟨w, hs.1, rfl⟩
  | polygon vs => exact ⟨hs.1, hs.2.1⟩
theorem flat_real {s : Flat2 ℝ} (hs : s.OnGrid g A) (D : Dec2 ℝ) : s.supportG D = s.prim.supportPoint D.tr :=
  funext fun d => s.supportG_real (by rintro vs rfl; exact hs.2.1) D d
theorem flat_not_circle (s : Flat2 ℝ) (c : Circle) : s.prim ≠ .circle c := by
  cases s <;> exact nofun

/-- **C105 for the primitives, in any rounded arithmetic that is exact on the grid**: the rounded run is the exact run. -/
theorem c105_prim2 (hE : Exact R g (2 * A) eps) {s t : Flat2 ℝ} (hs : s.OnGrid g A) (ht : t.OnGrid g A) {D E : Dec2 ℝ} (hD : Keeps g A D) (hF : Keeps g A E) (n : Nat) :
    gjkIntersectG2 (toF R eps) n ((s.toFl R).supportG (decF R D)) ((t.toFl R).supportG (decF R E)) (pointG2 (decF R D) 0) (pointG2 (decF R E) 0) =
      (gjkIntersect reduce2 n (s.prim.supportPoint D.tr) (t.prim.supportPoint E.tr) (D.tr.point 0) (E.tr.point 0)).mapOk (Option.map (List.map (spF R))) := by
  have hA := hE.one
  have u0 : Units2 g 1 A 0 := ⟨⟨0, by simp, by simp; omega⟩, ⟨0, by simp, by simp; omega⟩⟩
  have h := c105_run_2d hE (flat_follows hE hs hD) (flat_follows hE ht hF) (point_units hD u0) (point_units hF u0) n
  rw [← point_toF hE hD u0, ← point_toF hE hF u0, toV2_zero, flat_real hs, flat_real ht] at h
  unfold gjkIntersectG2 gjkIntersect
  rw [h]
  show _ = Res.mapOk _ (do let o ← gjkRun reduce2 n (s.prim.supportPoint D.tr) (t.prim.supportPoint E.tr) (pointG2 D 0) (pointG2 E 0); return o.toOption)
  cases gjkRun reduce2 n (s.prim.supportPoint D.tr) (t.prim.supportPoint E.tr) (pointG2 D 0) (pointG2 E 0) with
  | panic => rfl
  | timeout => rfl
  | ok o => cases o <;> rfl
end rounded

/-! ## `f64` -/

theorem rep_of_rep64 {x : ℝ} (h : Rep64 x) : Rep binary64 x := by
  unfold Rep toF
  have : binary64.rnd (x : EReal) = Dbvt.F64.fin x h := binary64.rnd_val (Dbvt.F64.fin x h)
  rw [this]
  rfl

/-- `f64::EPSILON` -/
def eps64 : ℝ := (2 : ℝ) ^ (-52 : ℤ)

/-- `f64` is exact on multiples of `2^e` of at most `1448` units. -/
theorem exact64 {e : ℤ} (h1 : -17 ≤ e) (h2 : e ≤ 242) {B : ℤ} (hB : 1 ≤ B) (hB' : B ≤ 1448) : Exact binary64 ((2 : ℝ) ^ e) B eps64 := by
  refine ⟨zpow_pos (by norm_num) e, hB, ?_, rep_of_rep64 ⟨1, -52, by norm_num, by norm_num, by norm_num, by simp [eps64]⟩, by unfold eps64; positivity, ?_, ?_⟩
  · intro k m hk hm
    refine rep_of_rep64 ⟨m, e * k, ?_, ?_, ?_, ?_⟩
    · have : B ^ 4 ≤ 1448 ^ 4 := pow_le_pow_left₀ (by omega) hB' 4
      norm_num at this ⊢
      omega
    · interval_cases k <;> omega
    · interval_cases k <;> omega
    · rw [zpow_mul, zpow_natCast, mul_comm]
  · exact zpow_lt_zpow_right₀ (by norm_num) (by omega)
  · unfold eps64
    rw [← zpow_add₀ (by norm_num), ← zpow_add₀ (by norm_num)]
    exact zpow_lt_zpow_right₀ (by norm_num) (by omega)

/-- **C105, `f64`**: two polygons, lines, rectangles, squares or particles whose coordinates and displacements are multiples of `2^e`, at most `724` of them, with rotations by quarter turns. GJK in `f64`
returns; a returned simplex is a triangle around the origin whose corners are, exactly, differences of points of the shapes, and the shapes share a point; when nothing is returned a line separates the shapes. -/
theorem c105_f64_2d {e : ℤ} (h1 : -17 ≤ e) (h2 : e ≤ 242) {s t : Flat2 ℝ} (hs : s.OnGrid ((2 : ℝ) ^ e) 724) (ht : t.OnGrid ((2 : ℝ) ^ e) 724) {D E : Dec2 ℝ} (hD : Keeps ((2 : ℝ) ^ e) 724 D)
    (hF : Keeps ((2 : ℝ) ^ e) 724 E) :
    ∃ o, gjkIntersectG2 (toF binary64 eps64) 100 ((s.toFl binary64).supportG (decF binary64 D)) ((t.toFl binary64).supportG (decF binary64 E)) (pointG2 (decF binary64 D) 0) (pointG2 (decF binary64 E) 0) = .ok o ∧
      (∀ x, o = some x → (∃ p, Image D.tr s.prim.Points p ∧ Image E.tr t.prim.Points p) ∧
        ∃ a b c, x = [spF binary64 a, spF binary64 b, spF binary64 c] ∧ (∀ p ∈ [a, b, c], FromShapes2 (Image D.tr s.prim.Points) (Image E.tr t.prim.Points) p) ∧ InTriangle a.v b.v c.v) ∧
      (o = none → Separated2 (Image D.tr s.prim.Points) (Image E.tr t.prim.Points)) := by
  have hE := exact64 h1 h2 (B := 2 * 724) (by norm_num) (by norm_num)
  rw [c105_prim2 hE hs ht hD hF]
  have oD := turn_orthogonal hD.rot
  have oE := turn_orthogonal hF.rot
  have sD : D.scale ≠ 0 := by rw [hD.scale]; norm_num
  have sE : E.scale ≠ 0 := by rw [hF.scale]; norm_num
  obtain ⟨o, ho, -, hn⟩ := c65_prim2 s.prim t.prim (flat_ok hs) (flat_ok ht) (flat_not_circle s) (flat_not_circle t) D E oD oE sD sE
  obtain ⟨o', ho', hh⟩ := c53_prim2 s.prim t.prim (flat_ok hs) (flat_ok ht) D E oD oE sD sE 100
  rw [ho] at ho'
  injection ho' with e
  subst e
  rw [ho]
  refine ⟨_, rfl, ?_, ?_⟩
  · intro x hx
    cases o with
    | none => cases hx
    | some l =>
      obtain ⟨h3, a, b, c, rfl, h4, h5⟩ := hh l rfl
      injection hx with hx
      exact ⟨h3, a, b, c, hx.symm, h4, h5⟩
  · intro hx
    cases o with
    | none => exact hn rfl
    | some l => cases hx

/-- A case of the theorem: a square with side 4 at the origin and a rectangle with sides 6 and 4, turned by a quarter and moved by `(1, 1)`, collide in `f64`. -/
theorem c105_example : ∃ x, gjkIntersectG2 (toF binary64 eps64) 100 (((Flat2.square 4).toFl binary64).supportG (decF binary64 ⟨1, ⟨⟨1, 0⟩, ⟨0, 1⟩⟩, 0⟩))
    (((Flat2.rectangle 6 4).toFl binary64).supportG (decF binary64 ⟨1, ⟨⟨0, 1⟩, ⟨-1, 0⟩⟩, ⟨1, 1⟩⟩)) (pointG2 (decF binary64 ⟨1, ⟨⟨1, 0⟩, ⟨0, 1⟩⟩, 0⟩) 0)
    (pointG2 (decF binary64 ⟨1, ⟨⟨0, 1⟩, ⟨-1, 0⟩⟩, ⟨1, 1⟩⟩) 0) = .ok (some x) := by
  have hs : (Flat2.square 4 : Flat2 ℝ).OnGrid ((2 : ℝ) ^ (0 : ℤ)) 724 := ⟨by norm_num, ⟨2, by norm_num, by norm_num⟩⟩
  have ht : (Flat2.rectangle 6 4 : Flat2 ℝ).OnGrid ((2 : ℝ) ^ (0 : ℤ)) 724 := by
    refine ⟨by norm_num, by norm_num, ?_, ?_⟩
    · exact ⟨3, by norm_num, by norm_num⟩
    · exact ⟨2, by norm_num, by norm_num⟩
  have hD : Keeps ((2 : ℝ) ^ (0 : ℤ)) 724 ⟨1, ⟨⟨1, 0⟩, ⟨0, 1⟩⟩, 0⟩ :=
    ⟨rfl, ⟨1, 1, Or.inl rfl, Or.inl rfl, Or.inl rfl⟩, ⟨0, by simp, by norm_num⟩, ⟨0, by simp, by norm_num⟩⟩
  have hF : Keeps ((2 : ℝ) ^ (0 : ℤ)) 724 ⟨1, ⟨⟨0, 1⟩, ⟨-1, 0⟩⟩, ⟨1, 1⟩⟩ :=
    ⟨rfl, ⟨1, -1, Or.inl rfl, Or.inr rfl, Or.inr rfl⟩, ⟨1, by simp, by norm_num⟩, ⟨1, by simp, by norm_num⟩⟩
  obtain ⟨o, ho, -, hn⟩ := c105_f64_2d (by norm_num) (by norm_num) hs ht hD hF
  cases o with
  | some x => exact ⟨x, ho⟩
  | none =>
    exfalso
    obtain ⟨d, hd, h⟩ := hn rfl
    have mem : ∀ x y : ℝ, -1 ≤ x → x ≤ 2 → -1 ≤ y → y ≤ 2 → Image (⟨1, ⟨⟨1, 0⟩, ⟨0, 1⟩⟩, 0⟩ : Dec2 ℝ).tr (Flat2.square 4).prim.Points ⟨x, y⟩ ∧
        Image (⟨1, ⟨⟨0, 1⟩, ⟨-1, 0⟩⟩, ⟨1, 1⟩⟩ : Dec2 ℝ).tr (Flat2.rectangle 6 4).prim.Points ⟨x, y⟩ := by
      intro x y h1 h2 h3 h4
      refine ⟨⟨⟨x, y⟩, ?_, ?_⟩, ⟨⟨y - 1, 1 - x⟩, ?_, ?_⟩⟩
      · show (-((4 : ℝ) / 2) ≤ x ∧ x ≤ 4 / 2) ∧ (-((4 : ℝ) / 2) ≤ y ∧ y ≤ 4 / 2)
        norm_num
        exact ⟨⟨by linarith, h2⟩, ⟨by linarith, h4⟩⟩
      · ext <;> simp [Dec2.tr, M2.apply]
      · show (-((6 : ℝ) / 2) ≤ y - 1 ∧ y - 1 ≤ 6 / 2) ∧ (-((4 : ℝ) / 2) ≤ 1 - x ∧ 1 - x ≤ 4 / 2)
        norm_num
        exact ⟨⟨by linarith, by linarith⟩, ⟨by linarith, by linarith⟩⟩
      · ext <;> simp [Dec2.tr, M2.apply]
    have a1 := h ⟨2, 0⟩ ⟨0, 0⟩ (mem 2 0 (by norm_num) (by norm_num) (by norm_num) (by norm_num)).1 (mem 0 0 (by norm_num) (by norm_num) (by norm_num) (by norm_num)).2
    have a2 := h ⟨0, 0⟩ ⟨2, 0⟩ (mem 0 0 (by norm_num) (by norm_num) (by norm_num) (by norm_num)).1 (mem 2 0 (by norm_num) (by norm_num) (by norm_num) (by norm_num)).2
    have a3 := h ⟨0, 2⟩ ⟨0, 0⟩ (mem 0 2 (by norm_num) (by norm_num) (by norm_num) (by norm_num)).1 (mem 0 0 (by norm_num) (by norm_num) (by norm_num) (by norm_num)).2
    have a4 := h ⟨0, 0⟩ ⟨0, 2⟩ (mem 0 0 (by norm_num) (by norm_num) (by norm_num) (by norm_num)).1 (mem 0 2 (by norm_num) (by norm_num) (by norm_num) (by norm_num)).2
    simp only [V2.dot] at a1 a2 a3 a4
    apply hd
    ext <;> simp <;> linarith
end
end Verif.Minkowski
