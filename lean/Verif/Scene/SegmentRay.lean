import Verif.Scene.PlanePairs
import Verif.Scene.F64Ray
/-!
# C129: rays against segments in rounded arithmetic (2D)

For a ray that is not nearly parallel to the segment the reported point is the exact common point of the two lines up to a multiple of the unit roundoff divided by the sine of the angle; a hit that is inside of both by more than that is reported, and no
point is reported that is outside of one of them by more than that.
-/
namespace Verif.Scene
open Verif Geom Primitive Minkowski
open Verif.Dbvt (Rounding F64 binary64 Rep64)
open Verif.Dbvt.B32 (F32 binary32 Rep32)
set_option linter.unusedSectionVars false
noncomputable section
open Classical
variable {F : Type} [LinearOrder F] {R : Rounding F} {u η Ω M : ℝ}

section model
variable (R : Rounding F)
/-- `Vector2::perp_dot` of cgmath in rounded arithmetic -/
def perpF (a b : V2 F) : F := R.sub (R.mul a.x b.y) (R.mul a.y b.x)
/-- `Continuous<Line2> for Ray2`, `src/line.rs:76-122` -/
def segPointF (ray : Ray2 F) (line : Line2 F) : Option (V2 F) :=
  let p := ray.origin
  let q := line.origin
  let r := ray.direction
  let s : V2 F := ⟨R.sub line.dest.x line.origin.x, R.sub line.dest.y line.origin.y⟩
  let cross1 := perpF R r s
  let qmp : V2 F := ⟨R.sub q.x p.x, R.sub q.y p.y⟩
  let cross2 := perpF R qmp r
  if cross1 = R.zero then
    if cross2 ≠ R.zero then none
    else
      let q2mp : V2 F := ⟨R.sub line.dest.x p.x, R.sub line.dest.y p.y⟩
      let dot1 := dotF2 R qmp r
      let dot2 := dotF2 R q2mp r
      if (dot1 ≤ R.zero ∧ R.zero ≤ dot2) ∨ (R.zero ≤ dot1 ∧ dot2 ≤ R.zero) then some p
      else if R.zero ≤ dot1 ∧ R.zero ≤ dot2 then
        if dot1 ≤ dot2 then some q else some line.dest
      else none
  else
    let t := R.div (perpF R qmp s) cross1
    let v := R.div cross2 cross1
    if R.zero ≤ t ∧ R.zero ≤ v ∧ v ≤ R.one then some ⟨R.add p.x (R.mul t r.x), R.add p.y (R.mul t r.y)⟩ else none
/-- `Discrete<Ray2> for Line2`, `src/line.rs:60-62` -/
def segHitF (line : Line2 F) (ray : Ray2 F) : Bool := (segPointF R ray line).isSome
/-- Ray and segment with rounded coordinates. -/
def rayR2 (o d : V2 ℝ) : Ray2 F := ⟨vecR2 R o, vecR2 R d⟩
def segR2 (a b : V2 ℝ) : Line2 F := ⟨vecR2 R a, vecR2 R b⟩
/-- What the arithmetic must satisfy: as in C127, and squares of `M` neither underflow nor overflow. -/
structure SegStd (u η Ω M : ℝ) : Prop where
  base : PlaneStd R u η Ω M
  low : 64 * η ≤ u * (M * M)
  high : 32 * (M * M) + 1 ≤ Ω
  room : 32 * M + 32 ≤ Ω
/-- Coordinates of the format: points of size at most `M`, the direction of size at most `101 / 100`; the ray is not nearly parallel to the segment. -/
structure SegIn (u M : ℝ) (o d a b : V2 ℝ) : Prop where
  origin : Rp R o ∧ Sz M o
  start : Rp R a ∧ Sz M a
  stop : Rp R b ∧ Sz M b
  dir : Rp R d ∧ Sz (101 / 100) d
  steep : 256 * (u * M) ≤ |d.perpDot (b - a)|
end model

/-! ## Errors -/
/-- Components differ by at most `e`. -/
def Off2 (e : ℝ) (a b : V2 ℝ) : Prop := |a.x - b.x| ≤ e ∧ |a.y - b.y| ≤ e
theorem Off2.sz {e A : ℝ} {a b : V2 ℝ} (h : Off2 e a b) (hb : Sz A b) : Sz (A + e) a := by
  have one : ∀ {x y : ℝ}, |x - y| ≤ e → |y| ≤ A → |x| ≤ A + e := by
    intro x y h h'
    rw [abs_le] at *
    constructor <;> linarith
  exact ⟨one h.1 hb.1, one h.2 hb.2⟩
/-- A rounded difference of points. -/
theorem sub2_err (h : SegStd R u η Ω M) {a b : V2 ℝ} (ra : Rp R a) (rb : Rp R b) (sa : Sz M a) (sb : Sz M b) :
    ∃ c, Rp R c ∧ (⟨R.sub (numR R a.x) (numR R b.x), R.sub (numR R a.y) (numR R b.y)⟩ : V2 F) = vecR2 R c ∧ Off2 (21 / 10 * (u * M)) c (a - b) ∧ Sz (201 / 100 * M) c ∧ Sz (2 * M) (a - b) := by
  have hu := h.base.pos
  have hM := h.base.M0
  have l2 := h.base.low'
  have hr := h.room
  have uM0 : 0 < u * M := mul_pos hu hM
  have uM : u * M ≤ 1 / 4096 * M := mul_le_mul_of_nonneg_right h.base.u' hM.le
  have one : ∀ {x y : ℝ}, Rep R x → Rep R y → |x| ≤ M → |y| ≤ M → ∃ c, Rep R c ∧ R.sub (numR R x) (numR R y) = numR R c ∧ |c - (x - y)| ≤ 21 / 10 * (u * M) ∧ |x - y| ≤ 2 * M := by
    intro x y rx ry hx hy
    have k : |x - y| ≤ 2 * M := by
      rw [abs_le] at *
      constructor <;> linarith
    obtain ⟨c, rc, ec, dc⟩ := h.base.std.fl k (by linarith)
    exact ⟨c, rc, (rsub rx ry).trans ec, by linarith, k⟩
  obtain ⟨x, rx, ex, dx, kx⟩ := one ra.1 rb.1 sa.1 sb.1
  obtain ⟨y, ry, ey, dy, ky⟩ := one ra.2 rb.2 sa.2 sb.2
  have hn : Off2 (21 / 10 * (u * M)) ⟨x, y⟩ (a - b) := ⟨dx, dy⟩
  have hs : Sz (2 * M) (a - b) := ⟨kx, ky⟩
  refine ⟨⟨x, y⟩, ⟨rx, ry⟩, by rw [ex, ey]; rfl, hn, ?_, hs⟩
  have := hn.sz hs
  exact this.mono (by linarith)
/-- The rounded `perp_dot`. -/
theorem perp_err (h : Std R u η Ω) {a b : V2 ℝ} {A B : ℝ} (ra : Rp R a) (rb : Rp R b) (sa : Sz A a) (sb : Sz B b) (hΩ : 3 * (A * B) + 1 ≤ Ω) :
    ∃ c, Rep R c ∧ perpF R (vecR2 R a) (vecR2 R b) = numR R c ∧ |c - a.perpDot b| ≤ 5 * (u * (A * B)) + 4 * η :=
  det_err h ra.1 rb.2 ra.2 rb.1 (mul_abs_le sa.1 sb.2) (mul_abs_le sa.2 sb.1) hΩ
/-- `perp_dot` of nearby vectors. -/
theorem perp_near {a a' b b' : V2 ℝ} {A B e f : ℝ} (ha : Off2 e a' a) (hb : Off2 f b' b) (sa : Sz A a) (sb : Sz B b') : |a'.perpDot b' - a.perpDot b| ≤ 2 * (e * B + A * f) := by
  have q1 := mul_abs_le ha.1 sb.2
  have q2 := mul_abs_le sa.1 hb.2
  have q3 := mul_abs_le ha.2 sb.1
  have q4 := mul_abs_le sa.2 hb.1
  simp only [V2.perpDot]
  rw [show a'.x * b'.y - a'.y * b'.x - (a.x * b.y - a.y * b.x) = ((a'.x - a.x) * b'.y + a.x * (b'.y - b.y)) - ((a'.y - a.y) * b'.x + a.y * (b'.x - b.x)) by ring]
  rw [abs_le] at *
  constructor <;> linarith
theorem perp_sz {a b : V2 ℝ} {A B : ℝ} (sa : Sz A a) (sb : Sz B b) : |a.perpDot b| ≤ 2 * (A * B) := by
  have q1 := mul_abs_le sa.1 sb.2
  have q2 := mul_abs_le sa.2 sb.1
  simp only [V2.perpDot]
  rw [abs_le] at *
  constructor <;> linarith

/-- A quotient of approximations. -/
theorem quot_real {n n' D D' p A B : ℝ} (hp : p * D = n) (hn : |n' - n| ≤ A) (hd : |D' - D| ≤ B) (hs : 16 * B ≤ |D|) (hD : 0 < |D|) : |n' / D' - p| ≤ 16 / 15 * ((A + B * |p|) / |D|) ∧ 15 / 16 * |D| ≤ |D'| := by
  have h1 : |D| ≤ |D'| + |D' - D| := by
    have := abs_sub_abs_le_abs_sub D D'
    rw [abs_sub_comm D D'] at this
    linarith
  have h2 : 15 / 16 * |D| ≤ |D'| := by linarith
  have hb' : 0 < |D'| := by linarith
  have hne : D' ≠ 0 := abs_pos.1 hb'
  refine ⟨?_, h2⟩
  have q : n' / D' - p = ((n' - n) - p * (D' - D)) / D' := by
    field_simp
    linarith
  rw [q, abs_div, div_le_iff₀ hb']
  have k1 : |(n' - n) - p * (D' - D)| ≤ A + B * |p| := by
    refine (abs_sub _ _).trans ?_
    rw [abs_mul]
    have h3 := mul_le_mul_of_nonneg_left hd (abs_nonneg p)
    linarith
  generalize hg : (A + B * |p|) / |D| = g
  have hgD : g * |D| = A + B * |p| := by rw [← hg]; field_simp
  have g0 : 0 ≤ g := by
    rw [← hg]
    exact div_nonneg ((abs_nonneg _).trans k1) hD.le
  have k2 := mul_le_mul_of_nonneg_left h2 g0
  linarith

/-- The error of the parameter on the ray, in units of `u`, without the constant. -/
def rayGap (u M t D : ℝ) : ℝ := u * (M * (M + |t|)) / |D|
/-- The error of the parameter on the segment. -/
def segGap (u M v D : ℝ) : ℝ := u * (M * (1 + |v|)) / |D|

/-- **C129.** `t` and `v` are the parameters of the common point of the two lines. -/
theorem c129_ray (h : SegStd R u η Ω M) {o d a b : V2 ℝ} (hr : SegIn R u M o d a b) {t v : ℝ} (ht : o + d * t = a + (b - a) * v) (hΩ : 4 * (M + |t|) + 4 * (1 + |v|) ≤ Ω) :
    let e := rayGap u M t (d.perpDot (b - a))
    let f := segGap u M v (d.perpDot (b - a))
    let r := segPointF R (rayR2 R o d) (segR2 R a b)
    segHitF R (segR2 R a b) (rayR2 R o d) = r.isSome ∧
    (∀ p, r = some p → ∃ q, Rp R q ∧ p = vecR2 R q ∧ Off2 (80 * e) q (o + d * t) ∧ -(60 * e) ≤ t ∧ -(30 * f) ≤ v ∧ v ≤ 1 + 30 * f) ∧
    (60 * e ≤ t → 30 * f ≤ v → v ≤ 1 - 30 * f → r.isSome) := by
  intro e f r
  refine ⟨rfl, ?_⟩
  have hu := h.base.pos
  have hu' := h.base.u'
  have hM := h.base.M0
  have l1 := h.base.low
  have l2 := h.base.low'
  have l3 := h.low
  have hη := h.base.std.η0
  have h1 := h.high
  have h2 := h.room
  have MM : 0 < M * M := mul_pos hM hM
  have uM0 : 0 < u * M := mul_pos hu hM
  have uM : u * M ≤ 1 / 4096 * M := mul_le_mul_of_nonneg_right hu' hM.le
  have uMM : u * (M * M) ≤ 1 / 4096 * (M * M) := mul_le_mul_of_nonneg_right hu' MM.le
  have uMM0 : 0 < u * (M * M) := mul_pos hu MM
  have uuM : u * (u * (M * M)) ≤ 1 / 4096 * (u * (M * M)) := mul_le_mul_of_nonneg_right hu' uMM0.le
  obtain ⟨s, rs, es, ns, ss, ss0⟩ := sub2_err h hr.stop.1 hr.start.1 hr.stop.2 hr.start.2
  obtain ⟨w, rw', ew, nw, sw, sw0⟩ := sub2_err h hr.start.1 hr.origin.1 hr.start.2 hr.origin.2
  have n0 : Off2 0 d d := by simp [Off2]
  obtain ⟨D', rD, eD, dD⟩ := perp_err h.base.std hr.dir.1 rs hr.dir.2 ss (by linarith)
  have dD2 := perp_near n0 ns hr.dir.2 ss
  obtain ⟨C', rC, eC, dC⟩ := perp_err h.base.std rw' hr.dir.1 sw hr.dir.2 (by linarith)
  have dC2 := perp_near nw n0 sw0 hr.dir.2
  obtain ⟨T', rT, eT, dT⟩ := perp_err h.base.std rw' rs sw ss (by linarith)
  have dT2 := perp_near nw ns sw0 ss
  have sD := perp_sz hr.dir.2 ss0
  have hs := hr.steep
  -- the exact numerators
  have x1 := congrArg V2.x ht
  have x2 := congrArg V2.y ht
  simp only [V2.add_x, V2.add_y, V2.mul_x, V2.mul_y, V2.sub_x, V2.sub_y] at x1 x2
  have pt : t * d.perpDot (b - a) = (a - o).perpDot (b - a) := by
    simp only [V2.perpDot, V2.sub_x, V2.sub_y]
    linear_combination (b.y - a.y) * x1 - (b.x - a.x) * x2
  have pv : v * d.perpDot (b - a) = (a - o).perpDot d := by
    simp only [V2.perpDot, V2.sub_x, V2.sub_y]
    linear_combination d.y * x1 - d.x * x2
  have eR : e = u * (M * (M + |t|)) / |d.perpDot (b - a)| := rfl
  have fR : f = u * (M * (1 + |v|)) / |d.perpDot (b - a)| := rfl
  have hr0 : r = segPointF R (rayR2 R o d) (segR2 R a b) := rfl
  generalize d.perpDot (b - a) = D at *
  generalize (a - o).perpDot (b - a) = nt at *
  generalize (a - o).perpDot d = nv at *
  clear_value e f
  have D0 : 0 < |D| := by linarith
  have aD : |D' - D| ≤ 15 * (u * M) := by
    rw [abs_le] at *
    constructor <;> linarith
  have aC : |C' - nv| ≤ 15 * (u * M) := by
    rw [abs_le] at *
    constructor <;> linarith
  have aT : |T' - nt| ≤ 38 * (u * (M * M)) := by
    rw [abs_le] at *
    constructor <;> linarith
  clear dD dD2 dC dC2 dT dT2
  have W0 : 0 < M + |t| := by positivity
  have V0 : 0 < 1 + |v| := by positivity
  have e0 : 0 < e := by rw [eR]; positivity
  have f0 : 0 < f := by rw [fR]; positivity
  have eD0 : e * |D| = u * (M * (M + |t|)) := by rw [eR]; field_simp
  have fD0 : f * |D| = u * (M * (1 + |v|)) := by rw [fR]; field_simp
  have uW : u * (M + |t|) ≤ 404 / 100 * e := by
    have k := mul_le_mul_of_nonneg_left sD e0.le
    have : u * (M + |t|) * M ≤ 404 / 100 * e * M := by linarith
    exact le_of_mul_le_mul_right this hM
  have uV : u * (1 + |v|) ≤ 404 / 100 * f := by
    have k := mul_le_mul_of_nonneg_left sD f0.le
    have : u * (1 + |v|) * M ≤ 404 / 100 * f * M := by linarith
    exact le_of_mul_le_mul_right this hM
  have eW : 256 * e ≤ M + |t| := by
    rw [eR, ← mul_div_assoc, div_le_iff₀ D0]
    have := mul_le_mul_of_nonneg_left hs W0.le
    linarith
  have fV : 256 * f ≤ 1 + |v| := by
    rw [fR, ← mul_div_assoc, div_le_iff₀ D0]
    have := mul_le_mul_of_nonneg_left hs V0.le
    linarith
  -- the parameters
  obtain ⟨qt, hD'⟩ := quot_real pt aT aD (by linarith) D0
  obtain ⟨qv, -⟩ := quot_real pv aC aD (by linarith) D0
  have kt : (38 * (u * (M * M)) + 15 * (u * M) * |t|) / |D| ≤ 38 * e := by
    rw [div_le_iff₀ D0]
    have : 0 ≤ u * M * |t| := by positivity
    linarith
  have kv : (15 * (u * M) + 15 * (u * M) * |v|) / |D| ≤ 15 * f := by
    rw [div_le_iff₀ D0]
    linarith
  have hT1 : |T' / D'| ≤ 117 / 100 * (M + |t|) := by
    have := abs_sub_abs_le_abs_sub (T' / D') t
    linarith
  have hV1 : |C' / D'| ≤ 107 / 100 * (1 + |v|) := by
    have := abs_sub_abs_le_abs_sub (C' / D') v
    linarith
  obtain ⟨T, rT1, eT1, dT1⟩ := h.base.std.fl hT1 (by linarith)
  obtain ⟨V, rV1, eV1, dV1⟩ := h.base.std.fl hV1 (by linarith)
  have tp : 0 ≤ u * |t| := by positivity
  have vp : 0 ≤ u * |v| := by positivity
  have hT : |T - t| ≤ 50 * e := by
    rw [abs_le] at qt dT1 ⊢
    constructor <;> linarith
  have hV : |V - v| ≤ 30 * f := by
    rw [abs_le] at qv dV1 ⊢
    constructor <;> linarith
  -- the coordinates
  have co : ∀ {x c : ℝ}, Rep R x → Rep R c → |x| ≤ M → |c| ≤ 101 / 100 → ∃ q, Rep R q ∧ R.add (numR R x) (R.mul (numR R T) (numR R c)) = numR R q ∧ |q - (x + c * t)| ≤ 80 * e := by
    intro x c rx rc hx hc
    have hTt : |T| ≤ 12 / 10 * (M + |t|) := by
      have := abs_sub_abs_le_abs_sub T t
      linarith
    have k1 := mul_abs_le hTt hc
    obtain ⟨y, ry, ey, dy⟩ := h.base.std.fl k1 (by linarith)
    have k2 : |x + y| ≤ 225 / 100 * (M + |t|) := by
      have t0 := abs_nonneg t
      have := mul_le_mul_of_nonneg_right hu' t0
      rw [abs_le] at k1 dy hx ⊢
      constructor <;> linarith
    obtain ⟨q, rq, eq, dq⟩ := h.base.std.fl k2 (by linarith)
    have k3 := mul_abs_le hc hT
    have e1 : R.mul (numR R T) (numR R c) = numR R y := (rmul rT1 rc).trans ey
    refine ⟨q, rq, by rw [e1]; exact (radd rx ry).trans eq, ?_⟩
    rw [show q - (x + c * t) = (q - (x + y)) + (y - T * c) + c * (T - t) by ring]
    rw [abs_le] at dq dy k3 ⊢
    constructor <;> linarith
  obtain ⟨X, rX, eX, dX⟩ := co hr.origin.1.1 hr.dir.1.1 hr.origin.2.1 hr.dir.2.1
  obtain ⟨Y, rY, eY, dY⟩ := co hr.origin.1.2 hr.dir.1.2 hr.origin.2.2 hr.dir.2.2
  -- the program
  have D0' : D' ≠ 0 := abs_pos.1 (by linarith)
  have z : (R.zero : F) = numR R 0 := (show toF R 0 = R.zero from toF_zero).symm
  have z1 : (R.one : F) = numR R 1 := (show toF R 1 = R.one from toF_one).symm
  have g1 : R.zero ≤ numR R T ↔ 0 ≤ T := by rw [z]; exact toF_le rep_zero rT1
  have g2 : R.zero ≤ numR R V ↔ 0 ≤ V := by rw [z]; exact toF_le rep_zero rV1
  have g3 : numR R V ≤ R.one ↔ V ≤ 1 := by rw [z1]; exact toF_le rV1 rep_one
  have g4 : numR R D' ≠ R.zero := by
    rw [z]
    exact fun k => D0' ((toF_inj rD rep_zero).1 k)
  have er : r = if 0 ≤ T ∧ 0 ≤ V ∧ V ≤ 1 then some (vecR2 R ⟨X, Y⟩) else none := by
    rw [hr0]
    unfold segPointF rayR2 segR2
    dsimp only
    have es' : (⟨R.sub (vecR2 R b).x (vecR2 R a).x, R.sub (vecR2 R b).y (vecR2 R a).y⟩ : V2 F) = vecR2 R s := es
    have ew' : (⟨R.sub (vecR2 R a).x (vecR2 R o).x, R.sub (vecR2 R a).y (vecR2 R o).y⟩ : V2 F) = vecR2 R w := ew
    have h5 : R.div (numR R T') (numR R D') = numR R T := (rdiv rT rD).trans eT1
    have h6 : R.div (numR R C') (numR R D') = numR R V := (rdiv rC rD).trans eV1
    rw [es', ew', eD, eC, eT, if_neg g4, h5, h6]
    have h7 : (⟨R.add (vecR2 R o).x (R.mul (numR R T) (vecR2 R d).x), R.add (vecR2 R o).y (R.mul (numR R T) (vecR2 R d).y)⟩ : V2 F) = vecR2 R ⟨X, Y⟩ := by
      show (⟨_, _⟩ : V2 F) = ⟨_, _⟩
      rw [← eX, ← eY]
      rfl
    rw [h7]
    by_cases q : 0 ≤ T ∧ 0 ≤ V ∧ V ≤ 1
    · rw [if_pos ⟨g1.2 q.1, g2.2 q.2.1, g3.2 q.2.2⟩, if_pos q]
    · rw [if_neg (fun k => q ⟨g1.1 k.1, g2.1 k.2.1, g3.1 k.2.2⟩), if_neg q]
  rw [er]
  rw [abs_le] at hT hV
  by_cases q : 0 ≤ T ∧ 0 ≤ V ∧ V ≤ 1
  · rw [if_pos q]
    obtain ⟨q1, q2, q3⟩ := q
    refine ⟨fun p hp => ⟨⟨X, Y⟩, ⟨rX, rY⟩, (Option.some.inj hp).symm, ⟨dX, dY⟩, ?_, ?_, ?_⟩, fun _ _ _ => rfl⟩ <;> linarith
  · rw [if_neg q]
    refine ⟨fun p hp => (by cases hp), fun k1 k2 k3 => absurd ⟨?_, ?_, ?_⟩ q⟩ <;> linarith

/-! ## Parallel rays -/
/-- The rounded dot product. -/
theorem dot2_near (h : SegStd R u η Ω M) {w x d : V2 ℝ} (rw' : Rp R w) (rd : Rp R d) (nw : Off2 (21 / 10 * (u * M)) w x) (sw : Sz (201 / 100 * M) w) (sd : Sz (101 / 100) d) :
    ∃ c, Rep R c ∧ dotF2 R (vecR2 R w) (vecR2 R d) = numR R c ∧ |c - x.dot d| ≤ 16 * (u * M) := by
  have hu := h.base.pos
  have hM := h.base.M0
  have l2 := h.base.low'
  have hr := h.room
  have uM0 : 0 < u * M := mul_pos hu hM
  have uM : u * M ≤ 1 / 4096 * M := mul_le_mul_of_nonneg_right h.base.u' hM.le
  have k1 := mul_abs_le sw.1 sd.1
  have k2 := mul_abs_le sw.2 sd.2
  obtain ⟨p, rp, ep, dp⟩ := h.base.std.fl k1 (by linarith)
  obtain ⟨q, rq, eq, dq⟩ := h.base.std.fl k2 (by linarith)
  have k3 : |p + q| ≤ 41 / 10 * M := by
    rw [abs_le] at *
    constructor <;> linarith
  obtain ⟨c, rc, ec, dc⟩ := h.base.std.fl k3 (by linarith)
  have g1 := mul_abs_le nw.1 sd.1
  have g2 := mul_abs_le nw.2 sd.2
  refine ⟨c, rc, ?_, ?_⟩
  · have e1 : R.mul (vecR2 R w).x (vecR2 R d).x = numR R p := (rmul rw'.1 rd.1).trans ep
    have e2 : R.mul (vecR2 R w).y (vecR2 R d).y = numR R q := (rmul rw'.2 rd.2).trans eq
    unfold dotF2
    rw [e1, e2]
    exact (radd rp rq).trans ec
  · simp only [V2.dot]
    rw [show c - (x.x * d.x + x.y * d.y) = (c - (p + q)) + (p - w.x * d.x) + (q - w.y * d.y) + (w.x - x.x) * d.x + (w.y - x.y) * d.y by ring]
    rw [abs_le] at *
    constructor <;> linarith
/-- **C129, parallel rays.** When the rounded `perp_dot` of the direction with the segment is zero, the test answers `None` if that with the offset is not zero, and otherwise the origin of the ray or an end of the segment: the origin only
if the segment is around it, an end only if the ray points towards it and it is not farther than the other end, all up to rounding; and `None` only if the segment is behind the origin. -/
theorem c129_parallel (h : SegStd R u η Ω M) {o d a b : V2 ℝ} (ro : Rp R o ∧ Sz M o) (ra : Rp R a ∧ Sz M a) (rb : Rp R b ∧ Sz M b) (rd : Rp R d ∧ Sz (101 / 100) d)
    (h1 : perpF R (vecR2 R d) ⟨R.sub (vecR2 R b).x (vecR2 R a).x, R.sub (vecR2 R b).y (vecR2 R a).y⟩ = R.zero) :
    let c := perpF R ⟨R.sub (vecR2 R a).x (vecR2 R o).x, R.sub (vecR2 R a).y (vecR2 R o).y⟩ (vecR2 R d)
    let r := segPointF R (rayR2 R o d) (segR2 R a b)
    let α := (a - o).dot d
    let β := (b - o).dot d
    let ε := 16 * (u * M)
    (c ≠ R.zero → r = none) ∧ (c = R.zero →
      (r = none → α < ε ∧ β < ε) ∧
      ∀ p, r = some p → p = vecR2 R o ∧ min α β ≤ ε ∧ -ε ≤ max α β ∨ p = vecR2 R a ∧ -ε ≤ α ∧ α ≤ β + 2 * ε ∨ p = vecR2 R b ∧ -ε ≤ β ∧ β ≤ α + 2 * ε) := by
  intro c r α β ε
  obtain ⟨w, rw', ew, nw, sw, -⟩ := sub2_err h ra.1 ro.1 ra.2 ro.2
  obtain ⟨x, rx, ex, nx, sx, -⟩ := sub2_err h rb.1 ro.1 rb.2 ro.2
  obtain ⟨A, rA, eA, dA⟩ := dot2_near h rw' rd.1 nw sw rd.2
  obtain ⟨B, rB, eB, dB⟩ := dot2_near h rx rd.1 nx sx rd.2
  have ew' : (⟨R.sub (vecR2 R a).x (vecR2 R o).x, R.sub (vecR2 R a).y (vecR2 R o).y⟩ : V2 F) = vecR2 R w := ew
  have ex' : (⟨R.sub (vecR2 R b).x (vecR2 R o).x, R.sub (vecR2 R b).y (vecR2 R o).y⟩ : V2 F) = vecR2 R x := ex
  have hc : c = perpF R (vecR2 R w) (vecR2 R d) := by rw [← ew']
  have z : (R.zero : F) = numR R 0 := (show toF R 0 = R.zero from toF_zero).symm
  have gA1 : numR R A ≤ R.zero ↔ A ≤ 0 := by rw [z]; exact toF_le rA rep_zero
  have gA2 : R.zero ≤ numR R A ↔ 0 ≤ A := by rw [z]; exact toF_le rep_zero rA
  have gB1 : numR R B ≤ R.zero ↔ B ≤ 0 := by rw [z]; exact toF_le rB rep_zero
  have gB2 : R.zero ≤ numR R B ↔ 0 ≤ B := by rw [z]; exact toF_le rep_zero rB
  have gAB : numR R A ≤ numR R B ↔ A ≤ B := toF_le rA rB
  have er : r = if c ≠ R.zero then none else if (numR R A ≤ R.zero ∧ R.zero ≤ numR R B) ∨ (R.zero ≤ numR R A ∧ numR R B ≤ R.zero) then some (vecR2 R o) else if R.zero ≤ numR R A ∧ R.zero ≤ numR R B then
      if numR R A ≤ numR R B then some (vecR2 R a) else some (vecR2 R b) else none := by
    rw [hc]
    show segPointF R (rayR2 R o d) (segR2 R a b) = _
    unfold segPointF rayR2 segR2
    dsimp only
    rw [if_pos h1, ew', ex', eA, eB]
  simp only [gA1, gA2, gB1, gB2, gAB] at er
  have dA' : |A - α| ≤ ε := dA
  have dB' : |B - β| ≤ ε := dB
  clear_value α β ε c r
  subst er
  rw [abs_le] at dA' dB'
  refine ⟨fun k => if_pos k, fun k => ?_⟩
  rw [if_neg (not_not.2 k)]
  by_cases k1 : (A ≤ 0 ∧ 0 ≤ B) ∨ (0 ≤ A ∧ B ≤ 0)
  · rw [if_pos k1]
    refine ⟨fun q => (by cases q), fun p hp => Or.inl ⟨(Option.some.inj hp).symm, ?_, ?_⟩⟩
    · rw [min_le_iff]
      rcases k1 with k1 | k1
      · left; linarith
      · right; linarith
    · rw [le_max_iff]
      rcases k1 with k1 | k1
      · right; linarith
      · left; linarith
  rw [if_neg k1]
  by_cases k2 : 0 ≤ A ∧ 0 ≤ B
  · rw [if_pos k2]
    by_cases k3 : A ≤ B
    · rw [if_pos k3]
      exact ⟨fun q => (by cases q), fun p hp => Or.inr (Or.inl ⟨(Option.some.inj hp).symm, by linarith, by linarith⟩)⟩
    · rw [if_neg k3]
      rw [not_le] at k3
      exact ⟨fun q => (by cases q), fun p hp => Or.inr (Or.inr ⟨(Option.some.inj hp).symm, by linarith, by linarith⟩)⟩
  · rw [if_neg k2]
    refine ⟨fun _ => ?_, fun p hp => (by cases hp)⟩
    have : A < 0 ∧ B < 0 := by
      rcases lt_or_ge A 0 with a0 | a0
      · rcases lt_or_ge B 0 with b0 | b0
        · exact ⟨a0, b0⟩
        · exact absurd (Or.inl ⟨a0.le, b0⟩) k1
      · rcases lt_or_ge B 0 with b0 | b0
        · exact absurd (Or.inr ⟨a0, b0.le⟩) k1
        · exact absurd ⟨a0, b0⟩ k2
    constructor <;> linarith
/-- Horizontal vectors: the rounded `perp_dot` is zero. -/
theorem perp_flat {x y : ℝ} (hx : Rep R x) (hy : Rep R y) : perpF R (vecR2 R ⟨x, 0⟩) (vecR2 R ⟨y, 0⟩) = R.zero := by
  have z : (R.zero : F) = toF R 0 := (show toF R 0 = R.zero from toF_zero).symm
  show R.sub (R.mul (toF R x) (toF R 0)) (R.mul (toF R 0) (toF R y)) = R.zero
  rw [rmul hx rep_zero, rmul rep_zero hy, mul_zero, zero_mul, rsub rep_zero rep_zero, sub_zero, z]

/-! ## The formats -/
theorem segStd64 (h0 : (2 : ℝ) ^ (-400 : ℤ) ≤ M) (h1 : M ≤ (2 : ℝ) ^ (400 : ℤ)) : SegStd binary64 ((2 : ℝ) ^ (-53 : ℤ)) ((2 : ℝ) ^ (-1075 : ℤ)) ((2 : ℝ) ^ (1022 : ℤ)) M where
  base := planeStd64 h0 h1
  low := by
    have := mul_le_mul h0 h0 (zpow2_pos _).le ((zpow2_pos _).le.trans h0)
    refine le_trans ?_ (mul_le_mul_of_nonneg_left this (zpow2_pos _).le)
    rw [show (64 : ℝ) = (2 : ℝ) ^ (6 : ℤ) by norm_num, zpow2_mul, zpow2_mul, zpow2_mul]
    exact zpow2_le (by norm_num)
  high := by
    have m0 := (zpow2_pos (-400)).le.trans h0
    have := mul_le_mul h1 h1 m0 (zpow2_pos _).le
    rw [zpow2_mul] at this
    have h2 : (64 : ℝ) * (2 : ℝ) ^ (400 + 400 : ℤ) ≤ (2 : ℝ) ^ (1022 : ℤ) := by
      rw [show (64 : ℝ) = (2 : ℝ) ^ (6 : ℤ) by norm_num, zpow2_mul]
      exact zpow2_le (by norm_num)
    have one := zpow2_le (show (0 : ℤ) ≤ 400 + 400 by norm_num)
    rw [zpow_zero] at one
    generalize (2 : ℝ) ^ (400 + 400 : ℤ) = Q at *
    generalize (2 : ℝ) ^ (1022 : ℤ) = Q' at *
    linarith
  room := room64 h1
theorem segStd32 (h0 : (2 : ℝ) ^ (-60 : ℤ) ≤ M) (h1 : M ≤ (2 : ℝ) ^ (60 : ℤ)) : SegStd binary32 ((2 : ℝ) ^ (-24 : ℤ)) ((2 : ℝ) ^ (-150 : ℤ)) ((2 : ℝ) ^ (126 : ℤ)) M where
  base := planeStd32 h0 (h1.trans (zpow2_le (by norm_num)))
  low := by
    have := mul_le_mul h0 h0 (zpow2_pos _).le ((zpow2_pos _).le.trans h0)
    refine le_trans ?_ (mul_le_mul_of_nonneg_left this (zpow2_pos _).le)
    norm_num
  high := by
    have m0 := (zpow2_pos (-60)).le.trans h0
    have := mul_le_mul h1 h1 m0 (zpow2_pos _).le
    refine (show 32 * (M * M) + 1 ≤ 32 * ((2 : ℝ) ^ (60 : ℤ) * (2 : ℝ) ^ (60 : ℤ)) + 1 by linarith).trans ?_
    norm_num
  room := room32 (h1.trans (zpow2_le (by norm_num)))
theorem params64 {t v : ℝ} (h1 : M ≤ (2 : ℝ) ^ (400 : ℤ)) (hT : |t| ≤ (2 : ℝ) ^ (1000 : ℤ)) (hV : |v| ≤ (2 : ℝ) ^ (1000 : ℤ)) : 4 * (M + |t|) + 4 * (1 + |v|) ≤ (2 : ℝ) ^ (1022 : ℤ) := by
  have h2 : (16 : ℝ) * (2 : ℝ) ^ (1000 : ℤ) ≤ (2 : ℝ) ^ (1022 : ℤ) := by
    rw [show (16 : ℝ) = (2 : ℝ) ^ (4 : ℤ) by norm_num, zpow2_mul]
    exact zpow2_le (by norm_num)
  have h3 := zpow2_le (show (400 : ℤ) ≤ 1000 by norm_num)
  have one := zpow2_le (show (0 : ℤ) ≤ 1000 by norm_num)
  rw [zpow_zero] at one
  generalize (2 : ℝ) ^ (400 : ℤ) = Q at *
  generalize (2 : ℝ) ^ (1000 : ℤ) = Q2 at *
  generalize (2 : ℝ) ^ (1022 : ℤ) = Q' at *
  linarith
theorem params32 {t v : ℝ} (h1 : M ≤ (2 : ℝ) ^ (60 : ℤ)) (hT : |t| ≤ (2 : ℝ) ^ (100 : ℤ)) (hV : |v| ≤ (2 : ℝ) ^ (100 : ℤ)) : 4 * (M + |t|) + 4 * (1 + |v|) ≤ (2 : ℝ) ^ (126 : ℤ) := by
  refine (show _ ≤ 4 * ((2 : ℝ) ^ (60 : ℤ) + (2 : ℝ) ^ (100 : ℤ)) + 4 * (1 + (2 : ℝ) ^ (100 : ℤ)) by linarith).trans ?_
  norm_num
/-- **C129 in `f64`.** -/
theorem c129_f64 (h0 : (2 : ℝ) ^ (-400 : ℤ) ≤ M) (h1 : M ≤ (2 : ℝ) ^ (400 : ℤ)) {o d a b : V2 ℝ} (hr : SegIn binary64 ((2 : ℝ) ^ (-53 : ℤ)) M o d a b) {t v : ℝ} (ht : o + d * t = a + (b - a) * v)
    (hT : |t| ≤ (2 : ℝ) ^ (1000 : ℤ)) (hV : |v| ≤ (2 : ℝ) ^ (1000 : ℤ)) :
    let e := rayGap ((2 : ℝ) ^ (-53 : ℤ)) M t (d.perpDot (b - a))
    let f := segGap ((2 : ℝ) ^ (-53 : ℤ)) M v (d.perpDot (b - a))
    let r := segPointF binary64 (rayR2 binary64 o d) (segR2 binary64 a b)
    segHitF binary64 (segR2 binary64 a b) (rayR2 binary64 o d) = r.isSome ∧
    (∀ p, r = some p → ∃ q, Rp binary64 q ∧ p = vecR2 binary64 q ∧ Off2 (80 * e) q (o + d * t) ∧ -(60 * e) ≤ t ∧ -(30 * f) ≤ v ∧ v ≤ 1 + 30 * f) ∧
    (60 * e ≤ t → 30 * f ≤ v → v ≤ 1 - 30 * f → r.isSome) :=
  c129_ray (segStd64 h0 h1) hr ht (params64 h1 hT hV)
/-- **C129 in `f32`.** -/
theorem c129_f32 (h0 : (2 : ℝ) ^ (-60 : ℤ) ≤ M) (h1 : M ≤ (2 : ℝ) ^ (60 : ℤ)) {o d a b : V2 ℝ} (hr : SegIn binary32 ((2 : ℝ) ^ (-24 : ℤ)) M o d a b) {t v : ℝ} (ht : o + d * t = a + (b - a) * v)
    (hT : |t| ≤ (2 : ℝ) ^ (100 : ℤ)) (hV : |v| ≤ (2 : ℝ) ^ (100 : ℤ)) :
    let e := rayGap ((2 : ℝ) ^ (-24 : ℤ)) M t (d.perpDot (b - a))
    let f := segGap ((2 : ℝ) ^ (-24 : ℤ)) M v (d.perpDot (b - a))
    let r := segPointF binary32 (rayR2 binary32 o d) (segR2 binary32 a b)
    segHitF binary32 (segR2 binary32 a b) (rayR2 binary32 o d) = r.isSome ∧
    (∀ p, r = some p → ∃ q, Rp binary32 q ∧ p = vecR2 binary32 q ∧ Off2 (80 * e) q (o + d * t) ∧ -(60 * e) ≤ t ∧ -(30 * f) ≤ v ∧ v ≤ 1 + 30 * f) ∧
    (60 * e ≤ t → 30 * f ≤ v → v ≤ 1 - 30 * f → r.isSome) :=
  c129_ray (segStd32 h0 h1) hr ht (params32 h1 hT hV)

/-- In `f32` the ray from the origin in direction `(1, 1/2)` hits the segment from `(2, 0)` to `(2, 4)` near `(2, 1)`, and misses the one from `(2, 2)` to `(2, 4)`. -/
example : (∃ q : V2 ℝ, segPointF binary32 (rayR2 binary32 0 ⟨1, 1 / 2⟩) (segR2 binary32 ⟨2, 0⟩ ⟨2, 4⟩) = some (vecR2 binary32 q) ∧ Off2 (1 / 1000) q ⟨2, 1⟩) ∧
    segHitF binary32 (segR2 binary32 ⟨2, 2⟩ ⟨2, 4⟩) (rayR2 binary32 0 ⟨1, 1 / 2⟩) = false := by
  have r0 := rep_zero (R := binary32)
  have r1 := rep_one (R := binary32)
  have r2 : Rep binary32 (2 : ℝ) := rep_of_rep32 ⟨2, 0, by norm_num, by norm_num, by norm_num, by norm_num⟩
  have r4 : Rep binary32 (4 : ℝ) := rep_of_rep32 ⟨4, 0, by norm_num, by norm_num, by norm_num, by norm_num⟩
  have rh : Rep binary32 ((1 : ℝ) / 2) := rep_of_rep32 ⟨1, -1, by norm_num, by norm_num, by norm_num, by norm_num⟩
  have s1 : SegIn binary32 ((2 : ℝ) ^ (-24 : ℤ)) 4 0 ⟨1, 1 / 2⟩ ⟨2, 0⟩ ⟨2, 4⟩ :=
    ⟨⟨⟨r0, r0⟩, by norm_num [Sz]⟩, ⟨⟨r2, r0⟩, by norm_num [Sz]⟩, ⟨⟨r2, r4⟩, by norm_num [Sz]⟩, ⟨⟨r1, rh⟩, by norm_num [Sz]⟩, by norm_num [V2.perpDot]⟩
  have s2 : SegIn binary32 ((2 : ℝ) ^ (-24 : ℤ)) 4 0 ⟨1, 1 / 2⟩ ⟨2, 2⟩ ⟨2, 4⟩ :=
    ⟨⟨⟨r0, r0⟩, by norm_num [Sz]⟩, ⟨⟨r2, r2⟩, by norm_num [Sz]⟩, ⟨⟨r2, r4⟩, by norm_num [Sz]⟩, ⟨⟨r1, rh⟩, by norm_num [Sz]⟩, by norm_num [V2.perpDot]⟩
  obtain ⟨-, p1, p2⟩ := c129_f32 (by norm_num) (by norm_num) s1 (t := 2) (v := 1 / 4) (by ext <;> norm_num) (by norm_num) (by norm_num)
  obtain ⟨q0, q1, -⟩ := c129_f32 (by norm_num) (by norm_num) s2 (t := 2) (v := -1 / 2) (by ext <;> norm_num) (by norm_num) (by norm_num)
  constructor
  · obtain ⟨p, hp⟩ := Option.isSome_iff_exists.1 (p2 (by norm_num [rayGap, V2.perpDot]) (by norm_num [segGap, V2.perpDot]) (by norm_num [segGap, V2.perpDot]))
    obtain ⟨q, -, rfl, hn, -⟩ := p1 p hp
    refine ⟨q, hp, ?_⟩
    norm_num [Off2, rayGap, V2.perpDot] at hn ⊢
    exact ⟨hn.1.trans (by norm_num), hn.2.trans (by norm_num)⟩
  · rw [q0]
    cases hp : segPointF binary32 (rayR2 binary32 0 ⟨1, 1 / 2⟩) (segR2 binary32 ⟨2, 2⟩ ⟨2, 4⟩) with
    | none => rfl
    | some p =>
      exfalso
      obtain ⟨q, -, -, -, -, hv, -⟩ := q1 p hp
      norm_num [segGap, V2.perpDot] at hv
/-- In `f32` the horizontal ray from the origin answers the nearer end `(2, 0)` of the segment from `(2, 0)` to `(4, 0)`, and `None` for the one from `(-2, 0)` to `(-4, 0)`. -/
example : segPointF binary32 (rayR2 binary32 0 ⟨1, 0⟩) (segR2 binary32 ⟨2, 0⟩ ⟨4, 0⟩) = some (vecR2 binary32 ⟨2, 0⟩) ∧ segPointF binary32 (rayR2 binary32 0 ⟨1, 0⟩) (segR2 binary32 ⟨-2, 0⟩ ⟨-4, 0⟩) = none := by
  have r0 := rep_zero (R := binary32)
  have r1 := rep_one (R := binary32)
  have rm : ∀ n : ℤ, |n| < 2 ^ 24 → Rep binary32 (n : ℝ) := fun n hn => rep_of_rep32 ⟨n, 0, hn, by norm_num, by norm_num, by norm_num⟩
  have r2 : Rep binary32 (2 : ℝ) := by simpa using rm 2 (by norm_num)
  have r4 : Rep binary32 (4 : ℝ) := by simpa using rm 4 (by norm_num)
  have rm2 : Rep binary32 (-2 : ℝ) := by simpa using rm (-2) (by norm_num)
  have rm4 : Rep binary32 (-4 : ℝ) := by simpa using rm (-4) (by norm_num)
  have zz : ∀ {x y : ℝ}, Rep binary32 x → Rep binary32 y → (⟨binary32.sub (vecR2 binary32 ⟨x, 0⟩).x (vecR2 binary32 ⟨y, 0⟩).x, binary32.sub (vecR2 binary32 ⟨x, 0⟩).y (vecR2 binary32 ⟨y, 0⟩).y⟩ : V2 F32) = vecR2 binary32 ⟨x - y, 0⟩ := by
    intro x y hx hy
    show (⟨binary32.sub (toF binary32 x) (toF binary32 y), binary32.sub (toF binary32 0) (toF binary32 0)⟩ : V2 F32) = ⟨toF binary32 (x - y), toF binary32 0⟩
    rw [rsub hx hy, rsub r0 r0, sub_zero]
  have key : ∀ {x y : ℝ}, Rep binary32 x → Rep binary32 y → |x| ≤ 4 → |y| ≤ 4 → Rep binary32 (y - x) → _ := fun {x y} hx hy sx sy hs => c129_parallel (segStd32 (M := 4) (by norm_num) (by norm_num)) (o := ⟨0, 0⟩) (d := ⟨1, 0⟩) (a := ⟨x, 0⟩) (b := ⟨y, 0⟩)
    ⟨⟨r0, r0⟩, by norm_num [Sz]⟩ ⟨⟨hx, r0⟩, sx, by norm_num⟩ ⟨⟨hy, r0⟩, sy, by norm_num⟩ ⟨⟨r1, r0⟩, by norm_num [Sz]⟩ (by rw [zz hy hx]; exact perp_flat r1 hs)
  constructor
  · obtain ⟨-, k⟩ := key r2 r4 (by norm_num) (by norm_num) (by norm_num; exact r2)
    obtain ⟨k1, k2⟩ := k (by rw [zz r2 r0]; exact perp_flat (by rw [sub_zero]; exact r2) r1)
    show segPointF binary32 (rayR2 binary32 ⟨0, 0⟩ ⟨1, 0⟩) _ = _
    cases e : segPointF binary32 (rayR2 binary32 ⟨0, 0⟩ ⟨1, 0⟩) (segR2 binary32 ⟨2, 0⟩ ⟨4, 0⟩) with
    | none =>
      have := k1 e
      norm_num [V2.dot] at this
    | some p =>
      rcases k2 p e with ⟨-, q, -⟩ | ⟨rfl, -⟩ | ⟨-, -, q⟩
      · norm_num [V2.dot] at q
      · rfl
      · norm_num [V2.dot] at q
  · obtain ⟨-, k⟩ := key rm2 rm4 (by norm_num) (by norm_num) (by norm_num; exact rm2)
    obtain ⟨k1, k2⟩ := k (by rw [zz rm2 r0]; exact perp_flat (by rw [sub_zero]; exact rm2) r1)
    show segPointF binary32 (rayR2 binary32 ⟨0, 0⟩ ⟨1, 0⟩) _ = _
    cases e : segPointF binary32 (rayR2 binary32 ⟨0, 0⟩ ⟨1, 0⟩) (segR2 binary32 ⟨-2, 0⟩ ⟨-4, 0⟩) with
    | none => rfl
    | some p =>
      exfalso
      rcases k2 p e with ⟨-, -, q⟩ | ⟨-, q, -⟩ | ⟨-, q, -⟩ <;> norm_num [V2.dot] at q
end
end Verif.Scene
