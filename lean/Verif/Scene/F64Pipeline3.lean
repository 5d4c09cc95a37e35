import Verif.Scene.F64Pipeline
import Verif.Scene.F64Miss3
/-!
# The 3D pipeline in `f64` (C113)

As in 2D (C108): bounds computed in rounded arithmetic are the exact bounds up to rounding; two solids that overlap by more than rounding have bounds that overlap, and every broad phase reports the pair. The
narrow phase confirms the pair, unless GJK uses all its iterations or asks for a support point in the direction zero (C114).
-/
namespace Verif.Scene
open Verif Geom Primitive Minkowski BroadPhase
open Verif.Dbvt (Rounding F64 binary64 Rep64 Exec Hist Ops c04_height contains_iff3 addMarginF3 c99_margin3)
set_option linter.unusedSectionVars false

section generic
variable {K : Type} [Add K] [Sub K] [Mul K] [Div K] [Neg K] [Zero K] [One K] [LinearOrder K]
/-- `compute_bound` of the 3D primitives with corners: `src/primitive/particle.rs`, `quad.rs:83-88`, `cuboid.rs:86-91, 188-190`, `polyhedron.rs:113-115, 129-131` -/
def boundG3 : Minkowski.Box3 K → Aabb3 K
  | .particle => Aabb3.zero
  | .quad w h => Aabb3.new ⟨-(w / (1 + 1 : K)), -(h / (1 + 1 : K)), 0⟩ ⟨w / (1 + 1 : K), h / (1 + 1 : K), 0⟩
  | .cuboid w h l => Aabb3.new (-((⟨w, h, l⟩ : V3 K) / (1 + 1 : K))) ((⟨w, h, l⟩ : V3 K) / (1 + 1 : K))
  | .cube w => Aabb3.new (-((⟨w, w, w⟩ : V3 K) / (1 + 1 : K))) ((⟨w, w, w⟩ : V3 K) / (1 + 1 : K))
  | .polyhedron vs => vs.foldl (fun b p => b.grow p) Aabb3.zero
/-- The bound of a placed solid: `compute_bound`, then `transform_volume` (`src/volume/aabb/aabb3.rs:90-100`). -/
def worldBoxG3 (s : Minkowski.Box3 K) (D : Dec3 K) : Aabb3 K := (boundG3 s).transform (pointG3 D)
end generic

noncomputable section
open Classical

/-- Over the reals it is the bound of the primitive. -/
theorem boundG3_real (s : Minkowski.Box3 ℝ) : boundG3 s = s.prim.bound := by
  cases s <;> rfl
theorem worldBoxG3_real (s : Minkowski.Box3 ℝ) (D : Dec3 ℝ) : worldBoxG3 s D = worldBox3 (s.prim, D) := by
  unfold worldBoxG3 worldBox3
  rw [boundG3_real]
  rfl

section rounded
variable {F : Type} [LinearOrder F] {R : Rounding F} {u η Ω M : ℝ}

variable (R) in
/-- The box with rounded coordinates. -/
def solidR (b : Aabb3 ℝ) : Aabb3 (Fl R) := ⟨toV3 R b.min, toV3 R b.max⟩
/-- All coordinates are representable and at most `M`. -/
def RpSolid (R : Rounding F) (M : ℝ) (b : Aabb3 ℝ) : Prop := (Rep3 R b.min ∧ Sz3 M b.min) ∧ Rep3 R b.max ∧ Sz3 M b.max

theorem solidR_new (p q : V3 ℝ) : Aabb3.new (toV3 R p) (toV3 R q) = solidR R (Aabb3.new p q) := by
  simp only [Aabb3.new, solidR, toV3, pmin_eq, pmax_eq, toF_monotone.map_min, toF_monotone.map_max]
theorem solidR_grow (b : Aabb3 ℝ) (p : V3 ℝ) : (solidR R b).grow (toV3 R p) = solidR R (b.grow p) := by
  simp only [Aabb3.grow, Aabb3.new, V3.pmin, V3.pmax, solidR, toV3, pmin_eq, pmax_eq, toF_monotone.map_min, toF_monotone.map_max]
theorem solidR_zero : (Aabb3.zero : Aabb3 (Fl R)) = solidR R Aabb3.zero := by
  unfold Aabb3.zero
  rw [← solidR_new, toV3_zero]

theorem pmin_rep {p q : V3 ℝ} (hp : Rep3 R p ∧ Sz3 M p) (hq : Rep3 R q ∧ Sz3 M q) : Rep3 R (V3.pmin p q) ∧ Sz3 M (V3.pmin p q) := by
  have P : ∀ {x y : ℝ}, (Rep R x ∧ |x| ≤ M) → (Rep R y ∧ |y| ≤ M) → (Rep R (min x y) ∧ |min x y| ≤ M) :=
    fun hx hy => either_min (P := fun z => Rep R z ∧ |z| ≤ M) hx hy
  unfold V3.pmin Rep3 Sz3
  simp only [pmin_eq]
  have h1 := P ⟨hp.1.1, hp.2.1⟩ ⟨hq.1.1, hq.2.1⟩
  have h2 := P ⟨hp.1.2.1, hp.2.2.1⟩ ⟨hq.1.2.1, hq.2.2.1⟩
  have h3 := P ⟨hp.1.2.2, hp.2.2.2⟩ ⟨hq.1.2.2, hq.2.2.2⟩
  exact ⟨⟨h1.1, h2.1, h3.1⟩, h1.2, h2.2, h3.2⟩
theorem pmax_rep {p q : V3 ℝ} (hp : Rep3 R p ∧ Sz3 M p) (hq : Rep3 R q ∧ Sz3 M q) : Rep3 R (V3.pmax p q) ∧ Sz3 M (V3.pmax p q) := by
  have P : ∀ {x y : ℝ}, (Rep R x ∧ |x| ≤ M) → (Rep R y ∧ |y| ≤ M) → (Rep R (max x y) ∧ |max x y| ≤ M) :=
    fun hx hy => either_max (P := fun z => Rep R z ∧ |z| ≤ M) hx hy
  unfold V3.pmax Rep3 Sz3
  simp only [pmax_eq]
  have h1 := P ⟨hp.1.1, hp.2.1⟩ ⟨hq.1.1, hq.2.1⟩
  have h2 := P ⟨hp.1.2.1, hp.2.2.1⟩ ⟨hq.1.2.1, hq.2.2.1⟩
  have h3 := P ⟨hp.1.2.2, hp.2.2.2⟩ ⟨hq.1.2.2, hq.2.2.2⟩
  exact ⟨⟨h1.1, h2.1, h3.1⟩, h1.2, h2.2, h3.2⟩
theorem RpSolid.new {p q : V3 ℝ} (hp : Rep3 R p ∧ Sz3 M p) (hq : Rep3 R q ∧ Sz3 M q) : RpSolid R M (Aabb3.new p q) := ⟨pmin_rep hp hq, pmax_rep hp hq⟩
theorem RpSolid.grow {b : Aabb3 ℝ} {p : V3 ℝ} (hb : RpSolid R M b) (hp : Rep3 R p ∧ Sz3 M p) : RpSolid R M (b.grow p) :=
  RpSolid.new (pmin_rep hb.1 hp) (pmax_rep hb.2 hp)

/-- The local bound is exact: only minima and maxima of the coordinates of the solid. -/
theorem bound3_exact (h : Std R u η Ω) (hM : 0 ≤ M) (hMΩ : M ≤ Ω) {s : Minkowski.Box3 ℝ} (hs : FitsS R M s) : boundG3 (s.toFl R) = solidR R (boundG3 s) ∧ RpSolid R M (boundG3 s) := by
  have z : Rep3 R (0 : V3 ℝ) ∧ Sz3 M (0 : V3 ℝ) := ⟨⟨rep_zero, rep_zero, rep_zero⟩, by simpa using hM, by simpa using hM, by simpa using hM⟩
  have half : ∀ {x : ℝ}, 0 ≤ x → Rep R x → Rep R (x / 2) → x / 2 ≤ M →
      toF R x / ((1 : Fl R) + 1) = toF R (x / (1 + 1)) ∧ -(toF R x / ((1 : Fl R) + 1)) = toF R (-(x / (1 + 1))) ∧ (Rep R (x / (1 + 1)) ∧ |x / (1 + 1)| ≤ M) ∧ Rep R (-(x / (1 + 1))) ∧ |-(x / (1 + 1))| ≤ M := by
    intro x x0 hx hx2 hxM
    rw [show x / (1 + 1) = x / 2 by norm_num, two_F h, toF_div hx h.two, toF_neg hx2, abs_neg, abs_of_nonneg (by linarith)]
    have hn := rep3_neg h (a := ⟨x / 2, x / 2, x / 2⟩) (A := M) ⟨hx2, hx2, hx2⟩ (by
      have : |x / 2| ≤ M := by rw [abs_of_nonneg (by linarith)]; exact hxM
      exact ⟨this, this, this⟩) hMΩ
    exact ⟨rfl, rfl, ⟨hx2, hxM⟩, hn.1, hxM⟩
  cases s with
  | particle => exact ⟨solidR_zero, RpSolid.new z z⟩
  | quad w k =>
    obtain ⟨⟨w0, k0⟩, ⟨rw1, rk⟩, ⟨rw2, rk2⟩, wM, kM⟩ := hs
    obtain ⟨a1, a2, a3, a4⟩ := half w0 rw1 rw2 wM
    obtain ⟨b1, b2, b3, b4⟩ := half k0 rk rk2 kM
    refine ⟨?_, RpSolid.new ⟨⟨a4.1, b4.1, rep_zero⟩, a4.2, b4.2, by simpa using hM⟩ ⟨⟨a3.1, b3.1, rep_zero⟩, a3.2, b3.2, by simpa using hM⟩⟩
    show Aabb3.new ⟨-(toF R w / ((1 : Fl R) + 1)), -(toF R k / ((1 : Fl R) + 1)), 0⟩ ⟨toF R w / ((1 : Fl R) + 1), toF R k / ((1 : Fl R) + 1), 0⟩ = solidR R (Aabb3.new _ _)
    rw [a2, b2, a1, b1, ← solidR_new, ← toF_zero]
    rfl
  | cuboid w k l =>
    obtain ⟨⟨w0, k0, l0⟩, ⟨rw1, rk, rl⟩, ⟨rw2, rk2, rl2⟩, wM, kM, lM⟩ := hs
    obtain ⟨a1, a2, a3, a4⟩ := half w0 rw1 rw2 wM
    obtain ⟨b1, b2, b3, b4⟩ := half k0 rk rk2 kM
    obtain ⟨c1, c2, c3, c4⟩ := half l0 rl rl2 lM
    refine ⟨?_, RpSolid.new ⟨⟨a4.1, b4.1, c4.1⟩, a4.2, b4.2, c4.2⟩ ⟨⟨a3.1, b3.1, c3.1⟩, a3.2, b3.2, c3.2⟩⟩
    show Aabb3.new ⟨-(toF R w / ((1 : Fl R) + 1)), -(toF R k / ((1 : Fl R) + 1)), -(toF R l / ((1 : Fl R) + 1))⟩ ⟨toF R w / ((1 : Fl R) + 1), toF R k / ((1 : Fl R) + 1), toF R l / ((1 : Fl R) + 1)⟩ = solidR R (Aabb3.new _ _)
    rw [a2, b2, c2, a1, b1, c1, ← solidR_new]
    rfl
  | cube w =>
    obtain ⟨w0, rw1, rw2, wM⟩ := hs
    obtain ⟨a1, a2, a3, a4⟩ := half w0 rw1 rw2 wM
    refine ⟨?_, RpSolid.new ⟨⟨a4.1, a4.1, a4.1⟩, a4.2, a4.2, a4.2⟩ ⟨⟨a3.1, a3.1, a3.1⟩, a3.2, a3.2, a3.2⟩⟩
    show Aabb3.new ⟨-(toF R w / ((1 : Fl R) + 1)), -(toF R w / ((1 : Fl R) + 1)), -(toF R w / ((1 : Fl R) + 1))⟩ ⟨toF R w / ((1 : Fl R) + 1), toF R w / ((1 : Fl R) + 1), toF R w / ((1 : Fl R) + 1)⟩ = solidR R (Aabb3.new _ _)
    rw [a2, a1, ← solidR_new]
    rfl
  | polyhedron vs =>
    have hv := hs.2
    have key : ∀ (vs : List (V3 ℝ)) (b : Aabb3 ℝ), (∀ v ∈ vs, Rep3 R v ∧ Sz3 M v) → RpSolid R M b →
        (vs.map (toV3 R)).foldl (fun b p => b.grow p) (solidR R b) = solidR R (vs.foldl (fun b p => b.grow p) b) ∧ RpSolid R M (vs.foldl (fun b p => b.grow p) b) := by
      intro vs
      induction vs with
      | nil => exact fun b _ hb => ⟨rfl, hb⟩
      | cons v vs ih =>
        intro b hv hb
        simp only [List.map_cons, List.foldl_cons, solidR_grow]
        exact ih _ (fun w hw => hv w (by simp [hw])) (hb.grow (hv v (by simp)))
    have := key vs Aabb3.zero hv (RpSolid.new z z)
    show (vs.map (toV3 R)).foldl (fun b p => b.grow p) (Aabb3.zero : Aabb3 (Fl R)) = _ ∧ _
    rw [solidR_zero]
    exact this

/-- The corners of a box with representable coordinates. -/
theorem corners_rep {b : Aabb3 ℝ} (hb : RpSolid R M b) : ∀ c ∈ b.toCorners, Rep3 R c ∧ Sz3 M c := by
  obtain ⟨⟨⟨h1, h2, h3⟩, h4, h5, h6⟩, ⟨h7, h8, h9⟩, k1, k2, k3⟩ := hb
  intro c hc
  simp only [Aabb3.toCorners, List.mem_cons, List.not_mem_nil, or_false] at hc
  rcases hc with rfl | rfl | rfl | rfl | rfl | rfl | rfl | rfl <;> exact ⟨⟨by assumption, by assumption, by assumption⟩, by assumption, by assumption, by assumption⟩

/-- Boxes of which every coordinate differs by at most `δ`. -/
def SolidNear (δ : ℝ) (a b : Aabb3 ℝ) : Prop := Sz3 δ (a.min - b.min) ∧ Sz3 δ (a.max - b.max)

theorem SolidNear.grow {δ : ℝ} {a b : Aabb3 ℝ} {p q : V3 ℝ} (h : SolidNear δ a b) (hp : Sz3 δ (p - q)) : SolidNear δ (a.grow p) (b.grow q) := by
  obtain ⟨⟨h1, h2, h3⟩, h4, h5, h6⟩ := h
  obtain ⟨p1, p2, p3⟩ := hp
  simp only [V3.sub_x, V3.sub_y, V3.sub_z] at *
  unfold SolidNear Sz3 Aabb3.grow Aabb3.new V3.pmin V3.pmax
  simp only [pmin_eq, pmax_eq, V3.sub_x, V3.sub_y, V3.sub_z]
  exact ⟨⟨near_min (near_min h1 p1) (near_max h4 p1), near_min (near_min h2 p2) (near_max h5 p2), near_min (near_min h3 p3) (near_max h6 p3)⟩,
    near_max (near_min h1 p1) (near_max h4 p1), near_max (near_min h2 p2) (near_max h5 p2), near_max (near_min h3 p3) (near_max h6 p3)⟩
theorem SolidNear.point {δ : ℝ} {p q : V3 ℝ} (hp : Sz3 δ (p - q)) : SolidNear δ (Aabb3.new p p) (Aabb3.new q q) := by
  unfold Aabb3.new
  simp only [pmin_eq, pmax_eq, min_self, max_self]
  exact ⟨hp, hp⟩

/-- **C113, the bound**: in rounded arithmetic the bound of a placed solid differs from the exact bound by rounding errors only. -/
theorem c113_box (h : Std R u η Ω) (hM : 1 ≤ M) (hΩ : 5 * M ≤ Ω) {s : Minkowski.Box3 ℝ} {D : Dec3 ℝ} (hs : FitsS R M s) (hD : Fits3 R M D) :
    ∃ B : Aabb3 ℝ, worldBoxG3 (s.toFl R) (decF3 R D) = solidR R B ∧ RpSolid R (6 * M) B ∧ SolidNear (14 * (u * M) + 7 * η) B (worldBox3 (s.prim, D)) := by
  obtain ⟨e, hb⟩ := bound3_exact h (by linarith) (by linarith) hs
  have hc := corners_rep hb
  have hp : ∀ v : V3 ℝ, ∃ w : V3 ℝ, Rep3 R v ∧ Sz3 M v → Rep3 R w ∧ Sz3 (6 * M) w ∧ pointG3 (decF3 R D) (toV3 R v) = toV3 R w ∧ Sz3 (14 * (u * M) + 7 * η) (w - D.tr.point v) := by
    intro v
    by_cases hv : Rep3 R v ∧ Sz3 M v
    · obtain ⟨w, hw⟩ := point3_near h hD hM hv.1 hv.2 hΩ
      exact ⟨w, fun _ => hw⟩
    · exact ⟨0, fun h => absurd h hv⟩
  choose w hw using hp
  have cm : ∀ c ∈ (boundG3 s).toCorners, Rep3 R (w c) ∧ Sz3 (6 * M) (w c) ∧ pointG3 (decF3 R D) (toV3 R c) = toV3 R (w c) ∧ Sz3 (14 * (u * M) + 7 * η) (w c - D.tr.point c) := fun c h => hw c (hc c h)
  have key : ∀ (l : List (V3 ℝ)) (A B : Aabb3 ℝ), (∀ c ∈ l, c ∈ (boundG3 s).toCorners) → RpSolid R (6 * M) A → SolidNear (14 * (u * M) + 7 * η) A B →
      (l.map (toV3 R)).foldl (fun u c => u.grow (pointG3 (decF3 R D) c)) (solidR R A) = solidR R (l.foldl (fun u c => u.grow (w c)) A) ∧
      RpSolid R (6 * M) (l.foldl (fun u c => u.grow (w c)) A) ∧
      SolidNear (14 * (u * M) + 7 * η) (l.foldl (fun u c => u.grow (w c)) A) (l.foldl (fun u c => u.grow (D.tr.point c)) B) := by
    intro l
    induction l with
    | nil => exact fun A B _ h1 h2 => ⟨rfl, h1, h2⟩
    | cons c l ih =>
      intro A B hl h1 h2
      obtain ⟨c1, c2, c3, c4⟩ := cm c (hl c (by simp))
      simp only [List.map_cons, List.foldl_cons]
      rw [c3, solidR_grow]
      exact ih _ _ (fun d hd => hl d (by simp [hd])) (h1.grow ⟨c1, c2⟩) (h2.grow c4)
  obtain ⟨m1, m2, m3, m4⟩ := cm (boundG3 s).min (by simp [Aabb3.toCorners])
  obtain ⟨k1, k2, k3⟩ := key (boundG3 s).toCorners.tail _ _ (fun c hc => List.mem_of_mem_tail hc) (RpSolid.new ⟨m1, m2⟩ ⟨m1, m2⟩) (SolidNear.point m4)
  refine ⟨_, ?_, k2, ?_⟩
  · rw [← k1, ← solidR_new, ← m3]
    unfold worldBoxG3 Aabb3.transform
    rw [e]
    rfl
  · unfold worldBox3 Aabb3.transform
    rw [← boundG3_real]
    exact k3

theorem solidR_intersects {A B : Aabb3 ℝ} {M N : ℝ} (hA : RpSolid R M A) (hB : RpSolid R N B) : (solidR R A).intersects (solidR R B) = A.intersects B := by
  obtain ⟨⟨⟨a1, a2, a3⟩, -⟩, ⟨a4, a5, a6⟩, -⟩ := hA
  obtain ⟨⟨⟨b1, b2, b3⟩, -⟩, ⟨b4, b5, b6⟩, -⟩ := hB
  unfold Aabb3.intersects solidR toV3
  simp only [gt_iff_lt, toF_lt a1 b4, toF_lt b1 a4, toF_lt a2 b5, toF_lt b2 a5, toF_lt a3 b6, toF_lt b3 a6]
end rounded

/-! ## `f64` -/

/-- The bound of an item as `f64` computes it. -/
def solid64 (a : Placed64) : Aabb3 (Fl binary64) := worldBoxG3 (a.1.toFl binary64) (decF3 binary64 a.2)
/-- The narrow phase of an item pair in `f64`: `GJK3::intersect` with its 100 iterations. Is there a simplex? -/
def narrow3 (a b : Placed64) : Res Bool := do
  let o ← runN3 100 a b
  return o.toOption.isSome
/-- The rounding error of a bound, `15 * 2^-53` times the largest coordinate. -/
def slack3 (M : ℝ) : ℝ := 15 * ((2 : ℝ) ^ (-53 : ℤ) * M)
/-- The exact bounds overlap, or are apart by at most `δ`, along all axes. -/
def BoundsMeet3 (δ : ℝ) (a b : Placed64) : Prop :=
  let A := worldBox3 (a.1.prim, a.2)
  let B := worldBox3 (b.1.prim, b.2)
  (B.min.x < A.max.x + δ ∧ A.min.x < B.max.x + δ) ∧ (B.min.y < A.max.y + δ ∧ A.min.y < B.max.y + δ) ∧ B.min.z < A.max.z + δ ∧ A.min.z < B.max.z + δ

variable {M : ℝ}
/-- **C113, the bound in `f64`**: every coordinate is within `15 * 2^-53 * M` of the exact bound; so every point of the item is in the bound enlarged by that much. -/
theorem c113_f64_box (hM : 1 ≤ M) (hM' : M ≤ 2 ^ 247) {a : Placed64} (ha : a.Ok M) :
    ∃ B : Aabb3 ℝ, solid64 a = solidR binary64 B ∧ RpSolid binary64 (6 * M) B ∧ SolidNear (slack3 M) B (worldBox3 (a.1.prim, a.2)) ∧
      ∀ p, a.At p → (B.min.x - slack3 M ≤ p.x ∧ p.x ≤ B.max.x + slack3 M) ∧ (B.min.y - slack3 M ≤ p.y ∧ p.y ≤ B.max.y + slack3 M) ∧ (B.min.z - slack3 M ≤ p.z ∧ p.z ≤ B.max.z + slack3 M) := by
  obtain ⟨B, h1, h2, h3⟩ := c113_box std64 hM (by
    have h1 : 5 * M ≤ 2 ^ 3 * 2 ^ 247 := by linarith
    rw [← pow_add] at h1
    refine h1.trans ?_
    rw [← zpow_natCast]
    exact zpow_le_zpow_right₀ (by norm_num) (by norm_num)) ha.shape ha.place
  have hη : 7 * (2 : ℝ) ^ (-1075 : ℤ) ≤ (2 : ℝ) ^ (-53 : ℤ) * M := by
    have q1 : (2 : ℝ) ^ (-1075 : ℤ) ≤ (2 : ℝ) ^ (-56 : ℤ) := zpow_le_zpow_right₀ (by norm_num) (by norm_num)
    have q2 : (2 : ℝ) ^ (-53 : ℤ) = 8 * (2 : ℝ) ^ (-56 : ℤ) := by norm_num
    have q3 : (0 : ℝ) < (2 : ℝ) ^ (-56 : ℤ) := zpow_pos (by norm_num) _
    have q4 : (2 : ℝ) ^ (-53 : ℤ) * 1 ≤ (2 : ℝ) ^ (-53 : ℤ) * M := mul_le_mul_of_nonneg_left hM (zpow_pos (by norm_num) _).le
    linarith
  have h4 : SolidNear (slack3 M) B (worldBox3 (a.1.prim, a.2)) := ⟨h3.1.mono (by unfold slack3; linarith), h3.2.mono (by unfold slack3; linarith)⟩
  refine ⟨B, h1, h2, h4, fun p hp => ?_⟩
  obtain ⟨⟨m1, m2⟩, ⟨m3, m4⟩, m5, m6⟩ := worldBox3_mem (a := (a.1.prim, a.2)) (prim3_ok ha.shape) hp
  obtain ⟨⟨n1, n2, n3⟩, n4, n5, n6⟩ := h4
  simp only [V3.sub_x, V3.sub_y, V3.sub_z, abs_le] at n1 n2 n3 n4 n5 n6
  exact ⟨⟨by linarith, by linarith⟩, ⟨by linarith, by linarith⟩, by linarith, by linarith⟩

theorem axis_norm3 {r : ℝ} (hr : 0 ≤ r) : ((⟨r, 0, 0⟩ : V3 ℝ).norm ≤ r ∧ (⟨-r, 0, 0⟩ : V3 ℝ).norm ≤ r) ∧ ((⟨0, r, 0⟩ : V3 ℝ).norm ≤ r ∧ (⟨0, -r, 0⟩ : V3 ℝ).norm ≤ r) ∧
    (⟨0, 0, r⟩ : V3 ℝ).norm ≤ r ∧ (⟨0, 0, -r⟩ : V3 ℝ).norm ≤ r := by
  have : Real.sqrt (r * r) = r := Real.sqrt_mul_self hr
  refine ⟨⟨?_, ?_⟩, ⟨?_, ?_⟩, ?_, ?_⟩ <;> simp [V3.norm, V3.dot, this]

/-- **C113, pairs of bounds in `f64`**: the bounds of items that overlap by more than rounding intersect; bounds that intersect belong to items with exact bounds that meet up to rounding. -/
theorem c113_f64_test (hM : 1 ≤ M) (hM' : M ≤ 2 ^ 247) {a b : Placed64} (ha : a.Ok M) (hb : b.Ok M) :
    (∀ r, 2 * slack3 M < r → Deep3 a.At b.At r → (solid64 a).intersects (solid64 b) = true) ∧ ((solid64 a).intersects (solid64 b) = true → BoundsMeet3 (2 * slack3 M) a b) := by
  obtain ⟨A, a1, a2, a3, a4⟩ := c113_f64_box hM hM' ha
  obtain ⟨B, b1, b2, b3, b4⟩ := c113_f64_box hM hM' hb
  have s0 : 0 ≤ slack3 M := mul_nonneg (by norm_num) (mul_nonneg (zpow_pos (by norm_num) _).le (by linarith))
  rw [a1, b1, solidR_intersects a2 b2]
  constructor
  · intro r hr hd
    obtain ⟨⟨e1, e2⟩, ⟨e3, e4⟩, e5, e6⟩ := axis_norm3 (r := r) (by linarith)
    simp only [Aabb3.intersects, Bool.and_eq_true, decide_eq_true_eq]
    refine ⟨⟨⟨⟨⟨?_, ?_⟩, ?_⟩, ?_⟩, ?_⟩, ?_⟩
    · obtain ⟨x, y, hx, hy, e⟩ := hd _ e1
      have := congrArg V3.x e
      simp only [V3.sub_x] at this
      linarith [(a4 x hx).1.2, (b4 y hy).1.1]
    · obtain ⟨x, y, hx, hy, e⟩ := hd _ e2
      have := congrArg V3.x e
      simp only [V3.sub_x] at this
      linarith [(a4 x hx).1.1, (b4 y hy).1.2]
    · obtain ⟨x, y, hx, hy, e⟩ := hd _ e3
      have := congrArg V3.y e
      simp only [V3.sub_y] at this
      linarith [(a4 x hx).2.1.2, (b4 y hy).2.1.1]
    · obtain ⟨x, y, hx, hy, e⟩ := hd _ e4
      have := congrArg V3.y e
      simp only [V3.sub_y] at this
      linarith [(a4 x hx).2.1.1, (b4 y hy).2.1.2]
    · obtain ⟨x, y, hx, hy, e⟩ := hd _ e5
      have := congrArg V3.z e
      simp only [V3.sub_z] at this
      linarith [(a4 x hx).2.2.2, (b4 y hy).2.2.1]
    · obtain ⟨x, y, hx, hy, e⟩ := hd _ e6
      have := congrArg V3.z e
      simp only [V3.sub_z] at this
      linarith [(a4 x hx).2.2.1, (b4 y hy).2.2.2]
  · intro h
    simp only [Aabb3.intersects, Bool.and_eq_true, decide_eq_true_eq] at h
    obtain ⟨⟨⟨⟨⟨h1, h2⟩, h3⟩, h4⟩, h5⟩, h6⟩ := h
    obtain ⟨⟨n1, n2, n3⟩, n4, n5, n6⟩ := a3
    obtain ⟨⟨m1, m2, m3⟩, m4, m5, m6⟩ := b3
    simp only [V3.sub_x, V3.sub_y, V3.sub_z, abs_le] at n1 n2 n3 n4 n5 n6 m1 m2 m3 m4 m5 m6
    exact ⟨⟨by linarith, by linarith⟩, ⟨by linarith, by linarith⟩, by linarith, by linarith⟩

/-- **C113, the narrow phase on the pairs of a broad phase, all in `f64`**: it answers; the pairs kept have exact bounds that meet up to rounding; a pair of items that overlap by more than rounding is kept,
unless GJK used all its iterations on it or asked for the direction zero. -/
theorem confirm3 (hM : 1 ≤ M) (hM' : M ≤ 2 ^ 247) {scene : List Placed64} (hok : ∀ a ∈ scene, a.Ok M) {pairs : List (Nat × Nat)} {Q : Nat → Nat → Prop}
    (hp : ∀ i j, (i, j) ∈ pairs ↔ i < j ∧ Hit solid64 Aabb3.intersects scene i j ∧ Q i j) :
    ∃ found, confirm narrow3 scene pairs = .ok found ∧ found.Sublist pairs ∧
      (∀ i j, (i, j) ∈ found → i < j ∧ Q i j ∧ ∃ a b, scene[i]? = some a ∧ scene[j]? = some b ∧ BoundsMeet3 (2 * slack3 M) a b) ∧
      ∀ i j a b r, i < j → Q i j → scene[i]? = some a → scene[j]? = some b → 3072 * ((2 : ℝ) ^ (-53 : ℤ) * M) < r → Deep3 a.At b.At r →
        (i, j) ∈ found ∨ runN3 100 a b = .ok .exhausted ∨ AskedZero 100 a b := by
  have mem : ∀ {i : Nat} {a}, scene[i]? = some a → a ∈ scene := fun h => List.mem_of_getElem? h
  have ans : ∀ a b : Placed64, a ∈ scene → b ∈ scene → ∃ o, runN3 100 a b = .ok o ∧ ∀ r, 3072 * ((2 : ℝ) ^ (-53 : ℤ) * M) < r → Deep3 a.At b.At r → o = .miss → AskedZero 100 a b := by
    intro a b ha hb
    obtain ⟨o, ho, h⟩ := c114_f64_3d_partial hM hM' (hok a ha) (hok b hb) 100
    exact ⟨o, ho, fun r hr hd e => (h e).resolve_left (deep3_not_nearly hr (mul_nonneg (by norm_num) (mul_nonneg (zpow_pos (by norm_num) _).le (by linarith))) hd)⟩
  let q : Nat × Nat → Bool := fun p => match scene[p.1]?, scene[p.2]? with
    | some a, some b => decide (narrow3 a b = .ok true)
    | _, _ => false
  have hq : ∀ p ∈ pairs, (do
      let a ← Res.ofOption scene[p.1]?
      let b ← Res.ofOption scene[p.2]?
      narrow3 a b) = Res.ok (q p) := by
    rintro ⟨i, j⟩ hij
    obtain ⟨-, ⟨a, b, ha, hb, -⟩, -⟩ := (hp i j).1 hij
    obtain ⟨o, h1, -⟩ := ans a b (mem ha) (mem hb)
    dsimp only [q]
    rw [ha, hb]
    show narrow3 a b = _
    have e : narrow3 a b = .ok o.toOption.isSome := by
      unfold narrow3
      rw [h1, Res.bind_ok]
      rfl
    show narrow3 a b = Res.ok (decide (narrow3 a b = .ok true))
    rw [e]
    cases o.toOption.isSome with
    | true => rw [decide_eq_true rfl]
    | false => rw [decide_eq_false (by intro h; cases h)]
  refine ⟨pairs.filter q, retainRes_ok _ q pairs hq, List.filter_sublist, ?_, ?_⟩
  · intro i j h
    obtain ⟨h1, h2⟩ := List.mem_filter.1 h
    obtain ⟨k1, ⟨a, b, ha, hb, k2⟩, k3⟩ := (hp i j).1 h1
    exact ⟨k1, k3, a, b, ha, hb, (c113_f64_test hM hM' (hok a (mem ha)) (hok b (mem hb))).2 k2⟩
  · intro i j a b r hij hQ ha hb hr hd
    obtain ⟨o, h1, h2⟩ := ans a b (mem ha) (mem hb)
    have s0 : (0 : ℝ) < (2 : ℝ) ^ (-53 : ℤ) * M := mul_pos (zpow_pos (by norm_num) _) (by linarith)
    have hit := (c113_f64_test hM hM' (hok a (mem ha)) (hok b (mem hb))).1 r (by unfold slack3; linarith) hd
    cases o with
    | miss => exact Or.inr (Or.inr (h2 r hr hd rfl))
    | exhausted => exact Or.inr (Or.inl h1)
    | hit x =>
      refine Or.inl (List.mem_filter.2 ⟨(hp i j).2 ⟨hij, ⟨a, b, ha, hb, hit⟩, hQ⟩, ?_⟩)
      dsimp only [q]
      rw [ha, hb]
      dsimp only
      have e : narrow3 a b = .ok true := by
        unfold narrow3
        rw [h1, Res.bind_ok]
        rfl
      exact decide_eq_true e

/-- What the broad phase hands on: all pairs that overlap by more than rounding, and only pairs with exact bounds that meet up to rounding. -/
def Handed3 (M : ℝ) (scene : List Placed64) (pairs : List (Nat × Nat)) : Prop :=
  (∀ i j, (i, j) ∈ pairs → i < j ∧ ∃ a b, scene[i]? = some a ∧ scene[j]? = some b ∧ BoundsMeet3 (2 * slack3 M) a b) ∧
    ∀ i j a b r, i < j → scene[i]? = some a → scene[j]? = some b → 2 * slack3 M < r → Deep3 a.At b.At r → (i, j) ∈ pairs
theorem handed3 (hM : 1 ≤ M) (hM' : M ≤ 2 ^ 247) {scene : List Placed64} (hok : ∀ a ∈ scene, a.Ok M) {pairs : List (Nat × Nat)} (hp : ∀ i j, (i, j) ∈ pairs ↔ i < j ∧ Hit solid64 Aabb3.intersects scene i j) :
    Handed3 M scene pairs := by
  have mem : ∀ {i : Nat} {a}, scene[i]? = some a → a ∈ scene := fun h => List.mem_of_getElem? h
  refine ⟨fun i j h => ?_, fun i j a b r hij ha hb hr hd => ?_⟩
  · obtain ⟨k1, a, b, ha, hb, k2⟩ := (hp i j).1 h
    exact ⟨k1, a, b, ha, hb, (c113_f64_test hM hM' (hok a (mem ha)) (hok b (mem hb))).2 k2⟩
  · exact (hp i j).2 ⟨hij, a, b, ha, hb, (c113_f64_test hM hM' (hok a (mem ha)) (hok b (mem hb))).1 r hr hd⟩

/-- What the pipeline finds in a scene: no pair twice; each pair has exact bounds that meet up to rounding; all pairs that overlap by more than rounding, unless GJK used all its iterations or asked for the
direction zero. -/
def Found3 (M : ℝ) (scene : List Placed64) (found : List (Nat × Nat)) : Prop :=
  found.Nodup ∧ (∀ i j, (i, j) ∈ found → i < j ∧ ∃ a b, scene[i]? = some a ∧ scene[j]? = some b ∧ BoundsMeet3 (2 * slack3 M) a b) ∧
    ∀ i j a b r, i < j → scene[i]? = some a → scene[j]? = some b → 3072 * ((2 : ℝ) ^ (-53 : ℤ) * M) < r → Deep3 a.At b.At r →
      (i, j) ∈ found ∨ runN3 100 a b = .ok .exhausted ∨ AskedZero 100 a b

/-- **C113 with brute force, in `f64`.** -/
theorem c113_brute_partial (hM : 1 ≤ M) (hM' : M ≤ 2 ^ 247) (scene : List Placed64) (hok : ∀ a ∈ scene, a.Ok M) :
    ∃ pairs found, bruteForce solid64 Aabb3.intersects scene = .ok pairs ∧ Handed3 M scene pairs ∧ confirm narrow3 scene pairs = .ok found ∧ Found3 M scene found := by
  obtain ⟨l, h1, h2, h3⟩ := c19_brute_force solid64 Aabb3.intersects scene
  obtain ⟨f, k1, k2, k3, k4⟩ := confirm3 hM hM' hok (pairs := l) (Q := fun _ _ => True) (by intro i j; rw [h3]; simp)
  exact ⟨l, f, h1, handed3 hM hM' hok h3, k1, k2.nodup h2.nodup, fun i j h => ⟨(k3 i j h).1, (k3 i j h).2.2⟩, fun i j a b r hij => k4 i j a b r hij trivial⟩

/-- **C113 with sweep and prune, in `f64`**, any axis and any variance (its numbers may be NaN): the positions are those in the list as the algorithm leaves it. -/
theorem c113_sweep_partial {σ : Type} (hM : 1 ≤ M) (hM' : M ≤ 2 ^ 247) (v : VarOps σ (Aabb3 (Fl binary64))) (s : Sap σ) (hax : s.sweep_axis < 3) (scene : List Placed64) (hok : ∀ a ∈ scene, a.Ok M) :
    ∃ pairs scene' s' found, s.findColliderPairs sapAabb3 v solid64 scene = .ok (pairs, scene', s') ∧ scene'.Perm scene ∧ Handed3 M scene' pairs ∧ confirm narrow3 scene' pairs = .ok found ∧
      Found3 M scene' found := by
  obtain ⟨l, scene', s', h1, h2, h3, h4⟩ := c20_boxes3 v solid64 s scene hax
  have hok' : ∀ a ∈ scene', a.Ok M := fun a ha => hok a (h2.mem_iff.1 ha)
  obtain ⟨f, k1, k2, k3, k4⟩ := confirm3 hM hM' hok' (pairs := l) (Q := fun _ _ => True) (by intro i j; rw [h4]; simp)
  exact ⟨l, scene', s', f, h1, h2, handed3 hM hM' hok' h4, k1, k2.nodup h3, fun i j h => ⟨(k3 i j h).1, (k3 i j h).2.2⟩, fun i j a b r hij => k4 i j a b r hij trivial⟩

/-- **C113 with a tree built from the scene, in `f64`** (at most 256 items, every item dirty; the margin is added with rounding; surface areas may be NaN): the list found is that of brute force. -/
theorem c113_tree_partial {S : Type} (hM : 1 ≤ M) (hM' : M ≤ 2 ^ 247) (margin : V3 F64) (hx : binary64.zero ≤ margin.x) (hy : binary64.zero ≤ margin.y) (hz : binary64.zero ≤ margin.z) (area : Aabb3 F64 → S)
    (lt : S → S → Bool) (sub div : S → S → S) (im : S) (scene : List Placed64) (hok : ∀ a ∈ scene, a.Ok M) (hlen : scene.length ≤ 256) (rng : Nat → Nat) :
    ∃ h s pairs found, Exec (roundOps3 (V := Placed64) (K := F64) solid64 (fun a => addMarginF3 binary64 (solid64 a) margin) area lt sub div im) h s ∧ s.values.map Prod.snd = scene ∧
      dbvtPairs (roundOps3 (V := Placed64) (K := F64) solid64 (fun a => addMarginF3 binary64 (solid64 a) margin) area lt sub div im) Aabb3.intersects s (List.replicate scene.length true) = .ok pairs ∧
      bruteForce solid64 Aabb3.intersects scene = .ok pairs ∧ Handed3 M scene pairs ∧ confirm narrow3 scene pairs = .ok found ∧ Found3 M scene found := by
  obtain ⟨h, s, he, hd, hu, hr, hv⟩ := build_tree (roundOps3 (V := Placed64) (K := F64) solid64 (fun a => addMarginF3 binary64 (solid64 a) margin) area lt sub div im) scene rng
  have hl : s.values.length = scene.length := by rw [← hv, List.length_map]
  obtain ⟨n, hh, -, -, hn, -⟩ := c04_height _ he hr
  obtain ⟨pairs, found, b1, b2, b3, b4⟩ := c113_brute_partial hM hM' scene hok
  rcases (c81_pairs3 _ _ area lt sub div im (fun v => (c99_margin3 binary64 (solid64 v) margin hx hy hz).2) he hd hu hr hh).2 with ⟨l, h1, h2⟩ | ⟨h1, -⟩
  · refine ⟨h, s, pairs, found, he, hv, ?_, b1, b2, b3, b4⟩
    rw [hl] at h1
    rw [h1]
    have : bruteForce (fun e : Nat × Placed64 => solid64 e.2) Aabb3.intersects s.values = bruteForce solid64 Aabb3.intersects (s.values.map Prod.snd) := by
      unfold bruteForce
      simp only [List.length_map, List.getElem?_map, ofOption_map, mapOk_bind]
    have h2' : bruteForce (fun e : Nat × Placed64 => solid64 e.2) Aabb3.intersects s.values = .ok l := h2
    rw [this, hv, b1] at h2'
    cases h2'
    rfl
  · omega

/-- A case of the theorem: the cubes of `c114_case` and one far away. In `f64` the broad phase hands on the pair of overlapping cubes; the cube far away is in no pair. -/
theorem c113_example : ∃ pairs, bruteForce solid64 Aabb3.intersects [cubeA, cubeB, (Minkowski.Box3.cuboid 10 10 10, shift3 0 100 0)] = .ok pairs ∧ ∀ i j, (i, j) ∈ pairs ↔ (i, j) = (0, 1) := by
  obtain ⟨ha, hb, hd⟩ := c114_case
  have mono : ∀ {a : Placed64}, a.Ok 7 → a.Ok 100 := by
    rintro a ⟨h1, h2, h3, h4⟩
    refine ⟨?_, ⟨h2.scale, h2.rot, h2.rd, h2.sd.mono (by norm_num)⟩, h3, h4⟩
    cases hs : a.1 <;> rw [hs] at h1
    · trivial
    · exact ⟨h1.1, h1.2.1, h1.2.2.1, h1.2.2.2.1.trans (by norm_num), h1.2.2.2.2.trans (by norm_num)⟩
    · exact ⟨h1.1, h1.2.1, h1.2.2.1, h1.2.2.2.1.trans (by norm_num), h1.2.2.2.2.1.trans (by norm_num), h1.2.2.2.2.2.trans (by norm_num)⟩
    · exact ⟨h1.1, h1.2.1, h1.2.2.1, h1.2.2.2.trans (by norm_num)⟩
    · exact ⟨h1.1, fun v hv => ⟨(h1.2 v hv).1, (h1.2 v hv).2.mono (by norm_num)⟩⟩
  have hc : Placed64.Ok 100 (Minkowski.Box3.cuboid 10 10 10, shift3 0 100 0) :=
    cube3_ok 5 0 100 0 (by norm_num) (by norm_num) (by norm_num) (by norm_num) (by norm_num) (by norm_num) (by norm_num) (by norm_num)
  obtain ⟨l, h1, h2, h3⟩ := c19_brute_force solid64 Aabb3.intersects [cubeA, cubeB, (Minkowski.Box3.cuboid 10 10 10, shift3 0 100 0)]
  refine ⟨l, h1, ?_⟩
  have t12 := (c113_f64_test (M := 100) (by norm_num) (by norm_num) (mono ha) (mono hb)).1 3 (by norm_num [slack3]) hd
  have eb : (Minkowski.Box3.cuboid 10 10 10 : Minkowski.Box3 ℝ).prim.bound = ⟨⟨-5, -5, -5⟩, ⟨5, 5, 5⟩⟩ := by
    rw [← boundG3_real]
    simp only [boundG3, Aabb3.new, pmin_eq, pmax_eq]
    ext <;> norm_num
  have ex : ∀ x y z : ℝ, worldBox3 ((Minkowski.Box3.cuboid 10 10 10 : Minkowski.Box3 ℝ).prim, shift3 x y z) = ⟨⟨x - 5, y - 5, z - 5⟩, ⟨x + 5, y + 5, z + 5⟩⟩ := by
    intro x y z
    unfold worldBox3 Aabb3.transform
    rw [eb]
    have tp : ∀ p : V3 ℝ, (shift3 x y z).tr.point p = ⟨p.x + x, p.y + y, p.z + z⟩ := by
      intro p
      ext <;> simp [shift3, Dec3.tr, M3.apply]
    simp only [Aabb3.toCorners, List.tail_cons, List.foldl_cons, List.foldl_nil, tp]
    simp only [Aabb3.grow, Aabb3.new, V3.pmin, V3.pmax, pmin_eq, pmax_eq, min_add_add_right, max_add_add_right, min_self, max_self]
    ext <;> norm_num <;> ring
  have no : ∀ x z : ℝ, ¬ BoundsMeet3 (2 * slack3 100) (Minkowski.Box3.cuboid 10 10 10, shift3 x 0 z) (Minkowski.Box3.cuboid 10 10 10, shift3 0 100 0) := by
    rintro x z ⟨-, ⟨h, -⟩, -⟩
    dsimp only at h
    rw [ex, ex] at h
    have hs : 2 * slack3 100 ≤ 1 := by norm_num [slack3]
    dsimp only at h
    linarith
  have n13 : (solid64 cubeA).intersects (solid64 (Minkowski.Box3.cuboid 10 10 10, shift3 0 100 0)) = false := by
    by_contra hx
    rw [Bool.not_eq_false] at hx
    exact no _ _ ((c113_f64_test (M := 100) (by norm_num) (by norm_num) (mono ha) hc).2 hx)
  have n23 : (solid64 cubeB).intersects (solid64 (Minkowski.Box3.cuboid 10 10 10, shift3 0 100 0)) = false := by
    by_contra hx
    rw [Bool.not_eq_false] at hx
    exact no _ _ ((c113_f64_test (M := 100) (by norm_num) (by norm_num) (mono hb) hc).2 hx)
  intro i j
  rw [h3]
  constructor
  · rintro ⟨hij, a, b, ha, hb, ht⟩
    have hj : j < 3 := (List.getElem?_eq_some_iff.1 hb).1
    interval_cases j <;> interval_cases i
    · rfl
    · simp only [List.getElem?_cons_zero, List.getElem?_cons_succ, Option.some.injEq] at ha hb
      rw [← ha, ← hb, n13] at ht
      cases ht
    · simp only [List.getElem?_cons_zero, List.getElem?_cons_succ, Option.some.injEq] at ha hb
      rw [← ha, ← hb, n23] at ht
      cases ht
  · intro e
    cases e
    exact ⟨by omega, _, _, rfl, rfl, t12⟩
end
end Verif.Scene
