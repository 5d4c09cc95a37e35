import Verif.Scene.F64
import Verif.Minkowski.RoundedMiss
import Verif.Minkowski.F64Gjk3
/-!
# Culling with planes in rounded arithmetic (C109)

The distance of a point from a plane is a rounded dot product. Its error is bounded, so `Out` and `In` of a point, a box, a sphere and of a frustum are right up to rounding, and a culling query on a tree in
`f64` loses nothing that is inside all planes by more than rounding.
-/
namespace Verif.Scene
open Verif Geom Dbvt Minkowski BroadPhase
set_option linter.unusedSectionVars false
noncomputable section
open Classical
variable {F : Type} [LinearOrder F] {R : Rounding F} {u η Ω M N : ℝ}

/-- All components are at most `A`. -/
def Sz3 (A : ℝ) (a : V3 ℝ) : Prop := |a.x| ≤ A ∧ |a.y| ≤ A ∧ |a.z| ≤ A
theorem Sz3.nonneg {A : ℝ} {a : V3 ℝ} (h : Sz3 A a) : 0 ≤ A := (abs_nonneg _).trans h.1

/-- The rounded dot product of three terms, added from the left. -/
theorem dot3_err (h : Std R u η Ω) {a b : V3 ℝ} {A B : ℝ} (ra : Rep3 R a) (rb : Rep3 R b) (sa : Sz3 A a) (sb : Sz3 B b) (hΩ : 4 * (A * B) + 1 ≤ Ω) :
    ∃ r, Rep R r ∧ (toV3 R a).dot (toV3 R b) = toF R r ∧ |r - a.dot b| ≤ 9 * (u * (A * B)) + 6 * η := by
  have hP : 0 ≤ A * B := mul_nonneg sa.nonneg sb.nonneg
  set P := A * B with hPdef
  have b1 := mul_abs_le sa.1 sb.1
  have b2 := mul_abs_le sa.2.1 sb.2.1
  have b3 := mul_abs_le sa.2.2 sb.2.2
  rw [← hPdef] at b1 b2 b3
  obtain ⟨x1, rx1, e1, d1⟩ := h.fl b1 (by linarith)
  obtain ⟨x2, rx2, e2, d2⟩ := h.fl b2 (by linarith)
  obtain ⟨x3, rx3, e3, d3⟩ := h.fl b3 (by linarith)
  have hu := h.u0
  have hu1 := h.u1
  have hη := h.η0
  have hη1 := h.η1
  have uP : u * P ≤ 1 / 16 * P := mul_le_mul_of_nonneg_right hu1 hP
  have uP0 : 0 ≤ u * P := mul_nonneg hu hP
  have u2 : u * (u * P) ≤ 1 / 16 * (u * P) := mul_le_mul_of_nonneg_right hu1 uP0
  have u2' : 0 ≤ u * (u * P) := mul_nonneg hu uP0
  have u3 : u * (u * (u * P)) ≤ 1 / 16 * (u * (u * P)) := mul_le_mul_of_nonneg_right hu1 u2'
  have uη : u * η ≤ 1 / 16 * η := mul_le_mul_of_nonneg_right hu1 hη
  have uη0 : 0 ≤ u * η := mul_nonneg hu hη
  have u2η : u * (u * η) ≤ 1 / 16 * (u * η) := mul_le_mul_of_nonneg_right hu1 uη0
  have hs : |x1 + x2| ≤ 2 * P + 2 * (u * P) + 2 * η := by
    rw [abs_le] at b1 b2 d1 d2 ⊢
    constructor <;> linarith
  obtain ⟨r, rr, e4, d4⟩ := h.fl hs (by linarith)
  have q1 : u * (2 * P + 2 * (u * P) + 2 * η) = 2 * (u * P) + 2 * (u * (u * P)) + 2 * (u * η) := by ring
  rw [q1] at d4
  have ht : |r + x3| ≤ 3 * P + 5 * (u * P) + 2 * (u * (u * P)) + 2 * (u * η) + 4 * η := by
    rw [abs_le] at hs b3 d3 d4 ⊢
    constructor <;> linarith
  obtain ⟨s, rs, e5, d5⟩ := h.fl ht (by linarith)
  have q2 : u * (3 * P + 5 * (u * P) + 2 * (u * (u * P)) + 2 * (u * η) + 4 * η) = 3 * (u * P) + 5 * (u * (u * P)) + 2 * (u * (u * (u * P))) + 2 * (u * (u * η)) + 4 * (u * η) := by ring
  rw [q2] at d5
  refine ⟨s, rs, ?_, ?_⟩
  · show toF R a.x * toF R b.x + toF R a.y * toF R b.y + toF R a.z * toF R b.z = _
    rw [toF_mul ra.1 rb.1, toF_mul ra.2.1 rb.2.1, toF_mul ra.2.2 rb.2.2, e1, e2, e3, toF_add rx1 rx2, e4, toF_add rr rx3, e5]
  · show |s - (a.x * b.x + a.y * b.y + a.z * b.z)| ≤ _
    rw [abs_le] at d1 d2 d3 d4 d5 ⊢
    constructor <;> linarith

variable (R) in
/-- The number and the vector nearest to real ones, as values of the type of numbers. -/
def numR (x : ℝ) : F := toF R x
variable (R) in
def vecR (v : V3 ℝ) : V3 F := ⟨numR R v.x, numR R v.y, numR R v.z⟩
variable (R) in
/-- The plane with rounded coefficients. -/
def planeR (P : Plane ℝ) : PlaneF F := ⟨vecR R P.n, numR R P.d⟩
theorem numR_lt {x y : ℝ} (hx : Rep R x) (hy : Rep R y) : numR R x < numR R y ↔ x < y := toF_lt hx hy
variable (R) in
/-- The coefficients of the plane are representable; those of the normal are at most `N`. -/
def FitsP (N : ℝ) (P : Plane ℝ) : Prop := Rep3 R P.n ∧ Sz3 N P.n ∧ Rep R P.d
/-- The signed distance times the length of the normal. -/
def Plane.gap (P : Plane ℝ) (p : V3 ℝ) : ℝ := P.n.x * p.x + P.n.y * p.y + P.n.z * p.z - P.d
/-- The bound on the rounding error. -/
def planeErr (u η M N : ℝ) : ℝ := 9 * (u * (M * N)) + 6 * η

/-- **C109, points.** -/
theorem c109_point (h : Std R u η Ω) (hΩ : 4 * (M * N) + 1 ≤ Ω) {P : Plane ℝ} (hP : FitsP R N P) {p : V3 ℝ} (rp : Rep3 R p) (sp : Sz3 M p) :
    ((relatePointF R (vecR R p) (planeR R P) = .Out → Plane.gap P p < planeErr u η M N) ∧ (relatePointF R (vecR R p) (planeR R P) = .In → -planeErr u η M N < Plane.gap P p)) ∧
    ((Plane.gap P p < -planeErr u η M N → relatePointF R (vecR R p) (planeR R P) = .Out) ∧ (planeErr u η M N < Plane.gap P p → relatePointF R (vecR R p) (planeR R P) = .In)) := by
  obtain ⟨r, rr, e, d⟩ := dot3_err h rp hP.1 sp hP.2.1 hΩ
  have e' : R.add (R.add (R.mul (vecR R p).x (planeR R P).n.x) (R.mul (vecR R p).y (planeR R P).n.y)) (R.mul (vecR R p).z (planeR R P).n.z) = numR R r := e
  rw [relatePointF_out, relatePointF_in, e']
  have h1 : numR R r < (planeR R P).d ↔ r < P.d := numR_lt rr hP.2.2
  have h2 : (planeR R P).d < numR R r ↔ P.d < r := numR_lt hP.2.2 rr
  rw [show p.dot P.n = Plane.gap P p + P.d by simp only [V3.dot, Plane.gap]; ring, abs_le] at d
  unfold planeErr
  refine ⟨⟨fun q => ?_, fun q => ?_⟩, fun q => h1.2 ?_, fun q => h2.2 ?_⟩
  · have := h1.1 q
    linarith
  · have := h2.1 q
    linarith
  · linarith
  · linarith

variable (R) in
/-- The box with rounded coordinates. -/
def boxR3 (b : Aabb3 ℝ) : Aabb3 F := ⟨vecR R b.min, vecR R b.max⟩
variable (R) in
/-- A box with a minimum below the maximum, coordinates representable and at most `M`. -/
def FitsB (M : ℝ) (b : Aabb3 ℝ) : Prop := b.Valid ∧ (Rep3 R b.min ∧ Sz3 M b.min) ∧ Rep3 R b.max ∧ Sz3 M b.max

theorem boxR3_valid {b : Aabb3 ℝ} (h : b.Valid) : (boxR3 R b).Valid := by
  have m : Monotone (toF R) := fun _ _ h => R.rnd_mono (EReal.coe_le_coe_iff.2 h)
  exact ⟨m h.1, m h.2.1, m h.2.2⟩

theorem corners3 (b : Aabb3 ℝ) : (boxR3 R b).toCorners = b.toCorners.map (vecR R) := rfl
theorem corner_fits {b : Aabb3 ℝ} (hb : FitsB R M b) : ∀ c ∈ b.toCorners, Rep3 R c ∧ Sz3 M c := by
  obtain ⟨-, ⟨⟨h1, h2, h3⟩, h4, h5, h6⟩, ⟨k1, k2, k3⟩, k4, k5, k6⟩ := hb
  intro c hc
  simp only [Aabb3.toCorners, List.mem_cons, List.not_mem_nil, or_false] at hc
  rcases hc with rfl | rfl | rfl | rfl | rfl | rfl | rfl | rfl <;> exact ⟨⟨by assumption, by assumption, by assumption⟩, by assumption, by assumption, by assumption⟩

theorem gap_interp (P : Plane ℝ) (p q : V3 ℝ) (t : ℝ) : Plane.gap P (p + (q - p) * t) = (1 - t) * Plane.gap P p + t * Plane.gap P q := by
  simp only [Plane.gap, V3.add_x, V3.add_y, V3.add_z, V3.mul_x, V3.mul_y, V3.mul_z, V3.sub_x, V3.sub_y, V3.sub_z]
  ring
theorem gap_lt_of_corners {P : Plane ℝ} {b : Aabb3 ℝ} {m : ℝ} (h : ∀ c ∈ b.toCorners, Plane.gap P c < m) {p : V3 ℝ} (hp : b.Mem p) : Plane.gap P p < m := by
  refine b.induct (fun p => Plane.gap P p < m) (fun p q t t0 t1 hp hq => ?_) h hp
  show Plane.gap P _ < m
  rw [gap_interp]
  rcases eq_or_lt_of_le t0 with rfl | t0
  · linarith
  · have h1 : (1 - t) * Plane.gap P p ≤ (1 - t) * m := mul_le_mul_of_nonneg_left hp.le (by linarith)
    have h2 : t * Plane.gap P q < t * m := mul_lt_mul_of_pos_left hq t0
    linarith
theorem lt_gap_of_corners {P : Plane ℝ} {b : Aabb3 ℝ} {m : ℝ} (h : ∀ c ∈ b.toCorners, m < Plane.gap P c) {p : V3 ℝ} (hp : b.Mem p) : m < Plane.gap P p := by
  refine b.induct (fun p => m < Plane.gap P p) (fun p q t t0 t1 hp hq => ?_) h hp
  show m < Plane.gap P _
  rw [gap_interp]
  rcases eq_or_lt_of_le t0 with rfl | t0
  · linarith
  · have h1 : (1 - t) * m ≤ (1 - t) * Plane.gap P p := mul_le_mul_of_nonneg_left hp.le (by linarith)
    have h2 : t * m < t * Plane.gap P q := mul_lt_mul_of_pos_left hq t0
    linarith
theorem corner_mem {b : Aabb3 ℝ} (hb : b.Valid) : ∀ c ∈ b.toCorners, b.Mem c := by
  obtain ⟨h1, h2, h3⟩ := hb
  intro c hc
  simp only [Aabb3.toCorners, List.mem_cons, List.not_mem_nil, or_false] at hc
  rcases hc with rfl | rfl | rfl | rfl | rfl | rfl | rfl | rfl <;> exact ⟨⟨by first | exact le_rfl | assumption, by first | exact le_rfl | assumption⟩, ⟨by first | exact le_rfl | assumption, by first | exact le_rfl | assumption⟩, by first | exact le_rfl | assumption, by first | exact le_rfl | assumption⟩

/-- **C109, boxes**: all the real points of the box, not only the corners. -/
theorem c109_box (h : Std R u η Ω) (hΩ : 4 * (M * N) + 1 ≤ Ω) {P : Plane ℝ} (hP : FitsP R N P) {b : Aabb3 ℝ} (hb : FitsB R M b) :
    ((relateBoxF R (boxR3 R b) (planeR R P) = .Out → ∀ p, b.Mem p → Plane.gap P p < planeErr u η M N) ∧
      (relateBoxF R (boxR3 R b) (planeR R P) = .In → ∀ p, b.Mem p → -planeErr u η M N < Plane.gap P p)) ∧
    (((∀ p, b.Mem p → Plane.gap P p < -planeErr u η M N) → relateBoxF R (boxR3 R b) (planeR R P) = .Out) ∧
      ((∀ p, b.Mem p → planeErr u η M N < Plane.gap P p) → relateBoxF R (boxR3 R b) (planeR R P) = .In)) := by
  rw [relateBoxF_corners R _ _ _ (by simp), relateBoxF_corners R _ _ _ (by simp), corners3]
  simp only [List.mem_map, forall_exists_index, and_imp, forall_apply_eq_imp_iff₂]
  have k := fun c hc => c109_point h hΩ hP (corner_fits hb c hc).1 (corner_fits hb c hc).2
  exact ⟨⟨fun q p hp => gap_lt_of_corners (fun c hc => (k c hc).1.1 (q c hc)) hp, fun q p hp => lt_gap_of_corners (fun c hc => (k c hc).1.2 (q c hc)) hp⟩,
    fun q c hc => (k c hc).2.1 (q c (corner_mem hb.1 c hc)), fun q c hc => (k c hc).2.2 (q c (corner_mem hb.1 c hc))⟩

theorem foldl_inF (b : Aabb3 F) (l : List (PlaneF F)) (a : Relation) : l.foldl (fun cur p => cur.max (relateBoxF R b p)) a = .In ↔ a = .In ∧ ∀ P ∈ l, relateBoxF R b P = .In := by
  have m : ∀ x y : Relation, x.max y = .In ↔ x = .In ∧ y = .In := by
    intro x y
    cases x <;> cases y <;> simp [Relation.max]
  induction l generalizing a with
  | nil => simp
  | cons p l ih =>
    rw [List.foldl_cons]
    refine (ih (a.max (relateBoxF R b p))).trans ?_
    simp [m, and_assoc]

/-- **C109, frusta**: a box called `Out` has no point that is inside all planes by the rounding error; one called `In` is inside up to the rounding error; a box outside one plane by more is `Out`, a box
inside all planes by more is `In`. -/
theorem c109_frustum (h : Std R u η Ω) (hΩ : 4 * (M * N) + 1 ≤ Ω) {planes : List (Plane ℝ)} (hP : ∀ P ∈ planes, FitsP R N P) {b : Aabb3 ℝ} (hb : FitsB R M b) :
    ((frustumF R (planes.map (planeR R)) (boxR3 R b) = .Out → ∃ P ∈ planes, ∀ p, b.Mem p → Plane.gap P p < planeErr u η M N) ∧
      (frustumF R (planes.map (planeR R)) (boxR3 R b) = .In → ∀ P ∈ planes, ∀ p, b.Mem p → -planeErr u η M N < Plane.gap P p)) ∧
    (((∃ P ∈ planes, ∀ p, b.Mem p → Plane.gap P p < -planeErr u η M N) → frustumF R (planes.map (planeR R)) (boxR3 R b) = .Out) ∧
      ((∀ P ∈ planes, ∀ p, b.Mem p → planeErr u η M N < Plane.gap P p) → frustumF R (planes.map (planeR R)) (boxR3 R b) = .In)) := by
  unfold frustumF
  rw [foldl_outF, foldl_inF]
  have k := fun P hP' => c109_box h hΩ (hP P hP') hb
  have ex : (∃ Q ∈ planes.map (planeR R), relateBoxF R (boxR3 R b) Q = .Out) ↔ ∃ P, P ∈ planes ∧ relateBoxF R (boxR3 R b) (planeR R P) = .Out := by
    constructor
    · rintro ⟨Q, hQ, q⟩
      obtain ⟨P, hP', rfl⟩ := List.mem_map.1 hQ
      exact ⟨P, hP', q⟩
    · rintro ⟨P, hP', q⟩
      exact ⟨_, List.mem_map.2 ⟨P, hP', rfl⟩, q⟩
  have fa : (∀ Q ∈ planes.map (planeR R), relateBoxF R (boxR3 R b) Q = .In) ↔ ∀ P, P ∈ planes → relateBoxF R (boxR3 R b) (planeR R P) = .In := by
    constructor
    · intro q P hP'
      exact q _ (List.mem_map.2 ⟨P, hP', rfl⟩)
    · intro q Q hQ
      obtain ⟨P, hP', rfl⟩ := List.mem_map.1 hQ
      exact q P hP'
  rw [ex, fa]
  refine ⟨⟨?_, fun q P hP' => (k P hP').1.2 (q.2 P hP')⟩, fun q => Or.inr ?_, fun q => ⟨rfl, fun P hP' => (k P hP').2.2 (q P hP')⟩⟩
  · intro q
    rcases q with q | q
    · cases q
    · obtain ⟨P, hP', q⟩ := q
      exact ⟨P, hP', (k P hP').1.1 q⟩
  · obtain ⟨P, hP', q⟩ := q
    exact ⟨P, hP', (k P hP').2.1 q⟩

/-! ## Spheres -/

/-- A sphere with representable numbers. -/
def sphereR (R : Rounding F) (s : Sphere) : SphereF F := ⟨vecR R s.center, numR R s.radius⟩
/-- `Sphere: PlaneBound`, rounded, `src/volume/sphere.rs:107-116` -/
def relateSphereF (R : Rounding F) (s : SphereF F) (P : PlaneF F) : Relation :=
  let dist := R.sub (R.add (R.add (R.mul s.center.x P.n.x) (R.mul s.center.y P.n.y)) (R.mul s.center.z P.n.z)) P.d
  if dist > s.radius then .In else if dist < R.rnd (-R.val s.radius) then .Out else .Cross

theorem gap_center {P : Plane ℝ} {s : Sphere} {p : V3 ℝ} (hp : s.Mem p) : |Plane.gap P p - Plane.gap P s.center| ≤ s.radius * P.n.norm := by
  have h1 := V3.cauchy (p - s.center) P.n
  have h2 := V3.cauchy (-(p - s.center)) P.n
  rw [V3.norm_neg] at h2
  have h3 : (p - s.center).norm * P.n.norm ≤ s.radius * P.n.norm := mul_le_mul_of_nonneg_right hp (V3.norm_nonneg _)
  have e : Plane.gap P p - Plane.gap P s.center = (p - s.center).dot P.n := by
    simp only [Plane.gap, V3.dot, V3.sub_x, V3.sub_y, V3.sub_z]; ring
  have e2 : (-(p - s.center)).dot P.n = -((p - s.center).dot P.n) := by
    simp only [V3.dot, V3.neg_x, V3.neg_y, V3.neg_z]; ring
  rw [e, abs_le]
  constructor <;> linarith

/-- What the rounded test of a sphere against a plane compares with the radius. -/
theorem relate_center (h : Std R u η Ω) (hΩ : 4 * (M * N) + 1 + M ≤ Ω) (hM : 0 ≤ M) {P : Plane ℝ} (hP : FitsP R N P) (hd : |P.d| ≤ M) {s : Sphere} (rc : Rep3 R s.center) (sc : Sz3 M s.center) (rr : Rep R s.radius)
    (h0 : 0 ≤ s.radius) (hrΩ : s.radius ≤ Ω) :
    ∃ t : ℝ, |t - Plane.gap P s.center| ≤ 13 * (u * (M * N)) + u * M + 8 * η ∧ (relateSphereF R (sphereR R s) (planeR R P) = .Out ↔ t < -s.radius) ∧ (relateSphereF R (sphereR R s) (planeR R P) = .In ↔ s.radius < t) := by
  obtain ⟨r, rr', e, d⟩ := dot3_err h rc hP.1 sc hP.2.1 (by linarith)
  have hMN : 0 ≤ M * N := mul_nonneg hM hP.2.1.nonneg
  have b1 := mul_abs_le sc.1 hP.2.1.1
  have b2 := mul_abs_le sc.2.1 hP.2.1.2.1
  have b3 := mul_abs_le sc.2.2 hP.2.1.2.2
  have hu := h.u0
  have hu1 := h.u1
  have hη := h.η0
  have hη1 := h.η1
  have uP : u * (M * N) ≤ 1 / 16 * (M * N) := mul_le_mul_of_nonneg_right hu1 hMN
  have uP0 : 0 ≤ u * (M * N) := mul_nonneg hu hMN
  have u2 : u * (u * (M * N)) ≤ 1 / 16 * (u * (M * N)) := mul_le_mul_of_nonneg_right hu1 uP0
  have uη : u * η ≤ 1 / 16 * η := mul_le_mul_of_nonneg_right hu1 hη
  have ed : s.center.dot P.n = Plane.gap P s.center + P.d := by simp only [V3.dot, Plane.gap]; ring
  have hr : |r - P.d| ≤ 3 * (M * N) + 9 * (u * (M * N)) + 6 * η + M := by
    have : |s.center.dot P.n| ≤ 3 * (M * N) := by
      rw [abs_le] at b1 b2 b3 ⊢
      simp only [V3.dot]
      constructor <;> linarith
    rw [abs_le] at d hd this ⊢
    constructor <;> linarith
  obtain ⟨t, rt, e2, d2⟩ := h.fl hr (by linarith)
  rw [show u * (3 * (M * N) + 9 * (u * (M * N)) + 6 * η + M) = 3 * (u * (M * N)) + 9 * (u * (u * (M * N))) + 6 * (u * η) + u * M by ring] at d2
  have e' : R.sub (R.add (R.add (R.mul (sphereR R s).center.x (planeR R P).n.x) (R.mul (sphereR R s).center.y (planeR R P).n.y)) (R.mul (sphereR R s).center.z (planeR R P).n.z)) (planeR R P).d = numR R t := by
    have e1 : R.add (R.add (R.mul (sphereR R s).center.x (planeR R P).n.x) (R.mul (sphereR R s).center.y (planeR R P).n.y)) (R.mul (sphereR R s).center.z (planeR R P).n.z) = numR R r := e
    rw [e1]
    exact (toF_sub rr' hP.2.2).trans e2
  have en : R.rnd (-R.val (sphereR R s).radius) = numR R (-s.radius) := toF_neg rr
  have rn : Rep R (-s.radius) := h.rep_neg (by rw [abs_of_nonneg h0]; exact hrΩ) rr
  have hc : |t - Plane.gap P s.center| ≤ 13 * (u * (M * N)) + u * M + 8 * η := by
    rw [ed] at d
    rw [abs_le] at d d2 ⊢
    constructor <;> linarith
  have i1 : numR R t > (sphereR R s).radius ↔ s.radius < t := numR_lt rr rt
  have i2 : numR R t < numR R (-s.radius) ↔ t < -s.radius := numR_lt rt rn
  refine ⟨t, hc, ?_⟩
  unfold relateSphereF
  rw [e', en]
  dsimp only
  constructor
  · constructor
    · intro q
      split at q
      · cases q
      · split at q
        · rename_i q2
          exact i2.1 q2
        · cases q
    · intro q
      rw [if_neg (fun q2 => by have := i1.1 q2; linarith), if_pos (i2.2 q)]
  · constructor
    · intro q
      split at q
      · rename_i q2
        exact i1.1 q2
      · split at q <;> cases q
    · intro q
      rw [if_pos (i1.2 q)]

/-- **C109, spheres**: the error has two more terms, for the subtraction of `d`. With a normal of length at most `1 + κ` (a unit normal in `f64` has unit length up to rounding) the points are classified up to that error and `κ` times the radius. -/
theorem c109_sphere (h : Std R u η Ω) (hΩ : 4 * (M * N) + 1 + M ≤ Ω) (hM : 0 ≤ M) {P : Plane ℝ} (hP : FitsP R N P) (hd : |P.d| ≤ M) {s : Sphere} (rc : Rep3 R s.center) (sc : Sz3 M s.center) (rr : Rep R s.radius)
    (h0 : 0 ≤ s.radius) (hrΩ : s.radius ≤ Ω) {κ : ℝ} (hn : P.n.norm ≤ 1 + κ) :
    (relateSphereF R (sphereR R s) (planeR R P) = .Out → ∀ p, s.Mem p → Plane.gap P p < 13 * (u * (M * N)) + u * M + 8 * η + κ * s.radius) ∧
    (relateSphereF R (sphereR R s) (planeR R P) = .In → ∀ p, s.Mem p → -(13 * (u * (M * N)) + u * M + 8 * η + κ * s.radius) < Plane.gap P p) := by
  obtain ⟨t, hc, q1, q2⟩ := relate_center h hΩ hM hP hd rc sc rr h0 hrΩ
  have far : ∀ p, s.Mem p → |Plane.gap P p - Plane.gap P s.center| ≤ s.radius + κ * s.radius := fun p hp => (gap_center hp).trans (by
    have := mul_le_mul_of_nonneg_left hn h0
    linarith)
  constructor
  · intro q p hp
    have := q1.1 q
    have f := far p hp
    rw [abs_le] at f hc
    linarith
  · intro q p hp
    have := q2.1 q
    have f := far p hp
    rw [abs_le] at f hc
    linarith

/-! ## `f64` -/

/-- The rounding error in `f64` for planes with a normal of components of at most 1. -/
def cullErr (M : ℝ) : ℝ := 10 * ((2 : ℝ) ^ (-53 : ℤ) * M)

/-- **C109, a culling query in `f64`** on a tree of at most 256 boxes with any margin: every value of whose box a point is inside all planes by the rounding error is returned; a value called `In` is inside
all planes up to the rounding error; a value that is outside a plane by more than the rounding error is not returned; `Out` is not returned, and no value more often than it is stored. -/
theorem c109_f64_tree {V S : Type} (hM : 1 ≤ M) (hM' : M ≤ 2 ^ 249) (box : V → Aabb3 ℝ) (hb : ∀ v, FitsB binary64 M (box v)) (m : V3 F64) (hm : f0 ≤ m.x ∧ f0 ≤ m.y ∧ f0 ≤ m.z) (area : Aabb3 F64 → S)
    (lt : S → S → Bool) (sub div : S → S → S) (im : S) (vs : List V) (hvs : vs.length ≤ 256) (rng : Nat → Nat) :
    ∃ s : Dbvt V Box64_3, s.values.map Prod.snd = vs ∧
      ∀ planes : List (Plane ℝ), (∀ P ∈ planes, FitsP binary64 1 P) →
        ∃ l, s.query (fOps3 (fun v => (⟨boxR3 binary64 (box v), boxR3_valid (hb v).1⟩ : Box64_3)) (fun v => fat3 m hm ⟨boxR3 binary64 (box v), boxR3_valid (hb v).1⟩) area lt sub div im)
            (pureVisitor fun b _ => if frustumF binary64 (planes.map (planeR binary64)) b.1 = .Out then none else some (frustumF binary64 (planes.map (planeR binary64)) b.1)) () = .ok l ∧
          (l.map Prod.fst).Subperm vs ∧
          (∀ v ∈ vs, (∃ p, (box v).Mem p ∧ ∀ P ∈ planes, cullErr M ≤ Plane.gap P p) → ∃ r, (v, r) ∈ l) ∧
          (∀ v, (v, Relation.In) ∈ l → ∀ p, (box v).Mem p → ∀ P ∈ planes, -cullErr M < Plane.gap P p) ∧
          (∀ v r, (v, r) ∈ l → r ≠ .Out ∧ ∀ P ∈ planes, ∃ p, (box v).Mem p ∧ -cullErr M ≤ Plane.gap P p) := by
  obtain ⟨s, hv, -, -, hq, -⟩ := c99_f64_3d (fun v => (⟨boxR3 binary64 (box v), boxR3_valid (hb v).1⟩ : Box64_3)) m hm area lt sub div im vs hvs rng
  refine ⟨s, hv, fun planes hP => ?_⟩
  obtain ⟨l, h1, h2⟩ := hq (planes.map (planeR binary64))
  have hΩ : 4 * (M * 1) + 1 ≤ (2 : ℝ) ^ (1022 : ℤ) := by
    have h1 : 4 * (M * 1) + 1 ≤ 2 ^ 3 * 2 ^ 249 := by linarith
    rw [← pow_add] at h1
    refine h1.trans ?_
    rw [← zpow_natCast]
    exact zpow_le_zpow_right₀ (by norm_num) (by norm_num)
  have hE : planeErr ((2 : ℝ) ^ (-53 : ℤ)) ((2 : ℝ) ^ (-1075 : ℤ)) M 1 ≤ cullErr M := by
    have q1 : (2 : ℝ) ^ (-1075 : ℤ) ≤ (2 : ℝ) ^ (-56 : ℤ) := zpow_le_zpow_right₀ (by norm_num) (by norm_num)
    have q2 : (2 : ℝ) ^ (-53 : ℤ) = 8 * (2 : ℝ) ^ (-56 : ℤ) := by norm_num
    have q3 : (0 : ℝ) < (2 : ℝ) ^ (-56 : ℤ) := zpow_pos (by norm_num) _
    have q4 : (2 : ℝ) ^ (-53 : ℤ) * 1 ≤ (2 : ℝ) ^ (-53 : ℤ) * M := mul_le_mul_of_nonneg_left hM (zpow_pos (by norm_num) _).le
    unfold planeErr cullErr
    rw [mul_one]
    linarith
  have k := fun v => c109_frustum std64 hΩ hP (hb v)
  have mem : ∀ v r, (v, r) ∈ l ↔ v ∈ vs ∧ frustumF binary64 (planes.map (planeR binary64)) (boxR3 binary64 (box v)) = r ∧ r ≠ .Out := by
    intro v r
    rw [h2.mem_iff]
    simp only [notOut, List.mem_filterMap]
    constructor
    · rintro ⟨w, hw, e⟩
      split at e
      · cases e
      · rename_i hne
        cases e
        exact ⟨hw, rfl, hne⟩
    · rintro ⟨hv, rfl, hne⟩
      exact ⟨v, hv, if_neg hne⟩
  refine ⟨l, h1, ((h2.map Prod.fst).subperm).trans (notOut_sublist _ vs).subperm, ?_, ?_, ?_⟩
  · rintro v hv ⟨p, hp, hin⟩
    refine ⟨_, (mem _ _).2 ⟨hv, rfl, fun ho => ?_⟩⟩
    obtain ⟨P, hP', hlt⟩ := (k v).1.1 ho
    have := hlt p hp
    have := hin P hP'
    linarith
  · intro v hin p hp P hP'
    have := (k v).1.2 ((mem _ _).1 hin).2.1 P hP' p hp
    linarith
  · intro v r hvr
    obtain ⟨-, e, hne⟩ := (mem _ _).1 hvr
    refine ⟨hne, fun P hP' => ?_⟩
    by_contra hc
    push Not at hc
    exact hne (e ▸ (k v).2.1 ⟨P, hP', fun p hp => by have := hc p hp; linarith⟩)

/-- Without rounding, `relateSphereF` is the classification of C41. -/
theorem c109_exact_sphere (s : Sphere) (P : Plane ℝ) : relateSphereF exactR (sphereE s) ⟨V3.ereal P.n, (P.d : EReal)⟩ = s.relatePlane P := by
  unfold relateSphereF Sphere.relatePlane sphereE V3.dot
  simp only [V3.ereal, Rounding.add, Rounding.sub, Rounding.mul, exactR, id, ← EReal.coe_mul, ← EReal.coe_add, ← EReal.coe_sub, ← EReal.coe_neg, gt_iff_lt, EReal.coe_lt_coe_iff]

/-- The six planes of an orthographic projection onto `|x|, |y|, |z| ≤ 8`. -/
def camera : List (Plane ℝ) := [⟨⟨1, 0, 0⟩, -8⟩, ⟨⟨-1, 0, 0⟩, -8⟩, ⟨⟨0, -1, 0⟩, -8⟩, ⟨⟨0, 1, 0⟩, -8⟩, ⟨⟨0, 0, -1⟩, -8⟩, ⟨⟨0, 0, 1⟩, -8⟩]
/-- A unit cube with the least corner on the axis of `x`. -/
def cubeAt (n : ℤ) : Aabb3 ℝ := ⟨⟨n, 0, 0⟩, ⟨n + 1, 1, 1⟩⟩
theorem rep_int {n : ℤ} (h : |n| < 2 ^ 53) : Rep binary64 (n : ℝ) := rep_of_rep64 ⟨n, 0, h, by norm_num, by norm_num, by norm_num⟩
/-- A case of the theorem: of two cubes, one at 1 and one at 20, in a tree in `f64`, the culling query with that camera returns the first and not the second. -/
theorem c109_example (rng : Nat → Nat) : ∃ (hb : ∀ n : ℤ, n ∈ [1, 20] → FitsB binary64 32 (cubeAt n)) (s : Dbvt { n : ℤ // n ∈ [1, 20] } Box64_3) (l : List ({ n : ℤ // n ∈ [1, 20] } × Relation)),
    s.query (fOps3 (fun v => (⟨boxR3 binary64 (cubeAt v.1), boxR3_valid (hb v.1 v.2).1⟩ : Box64_3)) (fun v => fat3 ⟨f0, f0, f0⟩ ⟨le_rfl, le_rfl, le_rfl⟩ ⟨boxR3 binary64 (cubeAt v.1), boxR3_valid (hb v.1 v.2).1⟩)
        (fun _ => ()) (fun _ _ => false) (fun _ _ => ()) (fun _ _ => ()) ())
      (pureVisitor fun b _ => if frustumF binary64 (camera.map (planeR binary64)) b.1 = .Out then none else some (frustumF binary64 (camera.map (planeR binary64)) b.1)) () = .ok l ∧
    (∃ r, (⟨1, by simp⟩, r) ∈ l) ∧ ∀ r, (⟨20, by simp⟩, r) ∉ l := by
  have r0 := rep_zero (R := binary64)
  have r1 := rep_one (R := binary64)
  have rm1 : Rep binary64 (-1) := by simpa using rep_int (n := -1) (by norm_num)
  have rm8 : Rep binary64 (-8) := by simpa using rep_int (n := -8) (by norm_num)
  have r2 : Rep binary64 (1 + 1) := by have := rep_int (n := 2) (by norm_num); norm_num at this ⊢; exact this
  have r20 : Rep binary64 20 := by simpa using rep_int (n := 20) (by norm_num)
  have r21 : Rep binary64 (20 + 1) := by have := rep_int (n := 21) (by norm_num); norm_num at this ⊢; exact this
  have hb : ∀ n : ℤ, n ∈ [1, 20] → FitsB binary64 32 (cubeAt n) := by
    intro n hn
    have hn : n = 1 ∨ n = 20 := by simpa using hn
    rcases hn with rfl | rfl
    · refine ⟨⟨by norm_num [cubeAt], by norm_num [cubeAt], by norm_num [cubeAt]⟩, ⟨⟨by simpa [cubeAt] using r1, r0, r0⟩, ?_⟩, ⟨by simpa [cubeAt] using r2, r1, r1⟩, ?_⟩ <;> norm_num [Sz3, cubeAt]
    · refine ⟨⟨by norm_num [cubeAt], by norm_num [cubeAt], by norm_num [cubeAt]⟩, ⟨⟨by simpa [cubeAt] using r20, r0, r0⟩, ?_⟩, ⟨by simpa [cubeAt] using r21, r1, r1⟩, ?_⟩ <;> norm_num [Sz3, cubeAt]
  have hP : ∀ P ∈ camera, FitsP binary64 1 P := by
    intro P hP
    simp only [camera, List.mem_cons, List.not_mem_nil, or_false] at hP
    rcases hP with rfl | rfl | rfl | rfl | rfl | rfl <;> exact ⟨⟨by assumption, by assumption, by assumption⟩, by norm_num [Sz3], rm8⟩
  obtain ⟨s, -, hq⟩ := c109_f64_tree (M := 32) (by norm_num) (by norm_num) (fun v : { n : ℤ // n ∈ [1, 20] } => cubeAt v.1) (fun v => hb v.1 v.2) ⟨f0, f0, f0⟩ ⟨le_rfl, le_rfl, le_rfl⟩
    (fun _ => ()) (fun _ _ => false) (fun _ _ => ()) (fun _ _ => ()) () [⟨1, by simp⟩, ⟨20, by simp⟩] (by simp) rng
  obtain ⟨l, h1, -, h2, -, h3⟩ := hq camera hP
  refine ⟨hb, s, l, h1, h2 _ (by simp) ⟨⟨1, 0, 0⟩, ?_, ?_⟩, fun r hr => ?_⟩
  · norm_num [Aabb3.Mem, cubeAt]
  · intro P hP
    simp only [camera, List.mem_cons, List.not_mem_nil, or_false] at hP
    rcases hP with rfl | rfl | rfl | rfl | rfl | rfl <;> norm_num [Plane.gap, cullErr]
  · obtain ⟨p, hp, hg⟩ := (h3 _ r hr).2 ⟨⟨-1, 0, 0⟩, -8⟩ (by simp [camera])
    have := hp.1.1
    simp only [cubeAt] at this
    norm_num [Plane.gap, cullErr] at hg this
    linarith
end
end Verif.Scene
