import Verif.Scene.Thin
import Verif.Scene.F64
import Verif.Minkowski.F64Hit
/-!
# The 2D pipeline in `f64` (C108)

Bounds computed in rounded arithmetic: `compute_bound` of the shape, then `transform_volume` with a rounded transform. They are the exact bounds up to rounding, so two shapes that overlap by more than
rounding have bounds that overlap, and every broad phase reports the pair; the narrow phase in rounded arithmetic (C106) does not say that they are apart.
-/
namespace Verif.Scene
open Verif Geom Primitive Minkowski BroadPhase Dbvt
set_option linter.unusedSectionVars false

section generic
variable {K : Type} [Add K] [Sub K] [Mul K] [Div K] [Neg K] [Zero K] [One K] [LinearOrder K]
/-- `compute_bound` of the flat 2D primitives: `src/primitive/particle.rs`, `line.rs:31-33`, `rectangle.rs:83-88, 166-168`, `polygon.rs` with `get_bound`, `src/primitive/util.rs:32-38` -/
def boundG : Flat2 K → Aabb2 K
  | .particle => Aabb2.zero
  | .line l => Aabb2.new l.origin l.dest
  | .rectangle w h => Aabb2.new (-((⟨w, h⟩ : V2 K) / (1 + 1 : K))) ((⟨w, h⟩ : V2 K) / (1 + 1 : K))
  | .square w => Aabb2.new (-((⟨w, w⟩ : V2 K) / (1 + 1 : K))) ((⟨w, w⟩ : V2 K) / (1 + 1 : K))
  | .polygon vs => vs.foldl (fun b p => b.grow p) Aabb2.zero
/-- The bound of a placed shape: `compute_bound`, then `transform_volume` (`src/volume/aabb/aabb2.rs:78-88`). -/
def worldBoxG (s : Flat2 K) (D : Dec2 K) : Aabb2 K := (boundG s).transform (pointG2 D)
end generic

noncomputable section
open Classical

/-- Over the reals it is the bound of the primitive. -/
theorem boundG_real (s : Flat2 ℝ) : boundG s = s.prim.bound := by
  cases s <;> rfl
theorem worldBoxG_real (s : Flat2 ℝ) (D : Dec2 ℝ) : worldBoxG s D = worldBox2 (s.prim, D) := by
  unfold worldBoxG worldBox2
  rw [boundG_real]
  rfl

section rounded
variable {F : Type} [LinearOrder F] {R : Rounding F} {u η Ω M : ℝ}

theorem toF_monotone : Monotone (toF R) := fun _ _ h => R.rnd_mono (EReal.coe_le_coe_iff.2 h)

variable (R) in
/-- The box with rounded coordinates. -/
def boxR (b : Aabb2 ℝ) : Aabb2 (Fl R) := ⟨toV2 R b.min, toV2 R b.max⟩
/-- All coordinates are representable and at most `M`. -/
def RpBox (R : Rounding F) (M : ℝ) (b : Aabb2 ℝ) : Prop := (Rp R b.min ∧ Sz M b.min) ∧ Rp R b.max ∧ Sz M b.max

theorem boxR_new (p q : V2 ℝ) : Aabb2.new (toV2 R p) (toV2 R q) = boxR R (Aabb2.new p q) := by
  simp only [Aabb2.new, boxR, toV2, pmin_eq, pmax_eq, toF_monotone.map_min, toF_monotone.map_max]
theorem boxR_grow (b : Aabb2 ℝ) (p : V2 ℝ) : (boxR R b).grow (toV2 R p) = boxR R (b.grow p) := by
  simp only [Aabb2.grow, Aabb2.new, V2.pmin, V2.pmax, boxR, toV2, pmin_eq, pmax_eq, toF_monotone.map_min, toF_monotone.map_max]
theorem boxR_zero : (Aabb2.zero : Aabb2 (Fl R)) = boxR R Aabb2.zero := by
  unfold Aabb2.zero
  rw [← boxR_new, toV2_zero]

theorem either_min {P : ℝ → Prop} {a b : ℝ} (ha : P a) (hb : P b) : P (min a b) := by
  rcases min_choice a b with h | h <;> rw [h] <;> assumption
theorem either_max {P : ℝ → Prop} {a b : ℝ} (ha : P a) (hb : P b) : P (max a b) := by
  rcases max_choice a b with h | h <;> rw [h] <;> assumption

theorem RpBox.new {p q : V2 ℝ} (hp : Rp R p ∧ Sz M p) (hq : Rp R q ∧ Sz M q) : RpBox R M (Aabb2.new p q) := by
  have P : ∀ x y : ℝ, (Rep R x ∧ |x| ≤ M) → (Rep R y ∧ |y| ≤ M) → (Rep R (min x y) ∧ |min x y| ≤ M) ∧ (Rep R (max x y) ∧ |max x y| ≤ M) :=
    fun x y hx hy => ⟨either_min (P := fun z => Rep R z ∧ |z| ≤ M) hx hy, either_max (P := fun z => Rep R z ∧ |z| ≤ M) hx hy⟩
  obtain ⟨⟨p1, p2⟩, p3, p4⟩ := hp
  obtain ⟨⟨q1, q2⟩, q3, q4⟩ := hq
  obtain ⟨⟨a1, a2⟩, a3, a4⟩ := P p.x q.x ⟨p1, p3⟩ ⟨q1, q3⟩
  obtain ⟨⟨b1, b2⟩, b3, b4⟩ := P p.y q.y ⟨p2, p4⟩ ⟨q2, q4⟩
  unfold RpBox Aabb2.new
  simp only [pmin_eq, pmax_eq]
  exact ⟨⟨⟨a1, b1⟩, a2, b2⟩, ⟨a3, b3⟩, a4, b4⟩
theorem pmin_rp {p q : V2 ℝ} (hp : Rp R p ∧ Sz M p) (hq : Rp R q ∧ Sz M q) : Rp R (V2.pmin p q) ∧ Sz M (V2.pmin p q) := by
  have P : ∀ x y : ℝ, (Rep R x ∧ |x| ≤ M) → (Rep R y ∧ |y| ≤ M) → (Rep R (min x y) ∧ |min x y| ≤ M) :=
    fun x y hx hy => either_min (P := fun z => Rep R z ∧ |z| ≤ M) hx hy
  unfold V2.pmin Rp Sz
  simp only [pmin_eq]
  have h1 := P p.x q.x ⟨hp.1.1, hp.2.1⟩ ⟨hq.1.1, hq.2.1⟩
  have h2 := P p.y q.y ⟨hp.1.2, hp.2.2⟩ ⟨hq.1.2, hq.2.2⟩
  exact ⟨⟨h1.1, h2.1⟩, h1.2, h2.2⟩
theorem pmax_rp {p q : V2 ℝ} (hp : Rp R p ∧ Sz M p) (hq : Rp R q ∧ Sz M q) : Rp R (V2.pmax p q) ∧ Sz M (V2.pmax p q) := by
  have P : ∀ x y : ℝ, (Rep R x ∧ |x| ≤ M) → (Rep R y ∧ |y| ≤ M) → (Rep R (max x y) ∧ |max x y| ≤ M) :=
    fun x y hx hy => either_max (P := fun z => Rep R z ∧ |z| ≤ M) hx hy
  unfold V2.pmax Rp Sz
  simp only [pmax_eq]
  have h1 := P p.x q.x ⟨hp.1.1, hp.2.1⟩ ⟨hq.1.1, hq.2.1⟩
  have h2 := P p.y q.y ⟨hp.1.2, hp.2.2⟩ ⟨hq.1.2, hq.2.2⟩
  exact ⟨⟨h1.1, h2.1⟩, h1.2, h2.2⟩
theorem RpBox.grow {b : Aabb2 ℝ} {p : V2 ℝ} (hb : RpBox R M b) (hp : Rp R p ∧ Sz M p) : RpBox R M (b.grow p) :=
  RpBox.new (pmin_rp hb.1 hp) (pmax_rp hb.2 hp)

/-- The local bound is exact: only minima and maxima of the coordinates of the shape. -/
theorem bound_exact (h : Std R u η Ω) (hM : 0 ≤ M) (hMΩ : M ≤ Ω) {s : Flat2 ℝ} (hs : s.Fits R M) : boundG (s.toFl R) = boxR R (boundG s) ∧ RpBox R M (boundG s) := by
  have z : Rp R (0 : V2 ℝ) ∧ Sz M (0 : V2 ℝ) := ⟨⟨rep_zero, rep_zero⟩, by simpa using hM, by simpa using hM⟩
  have half : ∀ w k : ℝ, 0 ≤ w → 0 ≤ k → Rep R w → Rep R k → Rep R (w / 2) → Rep R (k / 2) → w / 2 ≤ M → k / 2 ≤ M →
      Aabb2.new (-((⟨toF R w, toF R k⟩ : V2 (Fl R)) / (1 + 1 : Fl R))) ((⟨toF R w, toF R k⟩ : V2 (Fl R)) / (1 + 1 : Fl R)) =
        boxR R (Aabb2.new (-((⟨w, k⟩ : V2 ℝ) / (1 + 1 : ℝ))) ((⟨w, k⟩ : V2 ℝ) / (1 + 1 : ℝ))) ∧ RpBox R M (Aabb2.new (-((⟨w, k⟩ : V2 ℝ) / (1 + 1 : ℝ))) ((⟨w, k⟩ : V2 ℝ) / (1 + 1 : ℝ))) := by
    intro w k w0 k0 rw' rk rw2 rk2 wM kM
    have e2 : (1 + 1 : Fl R) = toF R 2 := by
      rw [← toF_one, toF_add rep_one rep_one]
      norm_num
    have eh : ((⟨w, k⟩ : V2 ℝ) / (1 + 1 : ℝ)) = ⟨w / 2, k / 2⟩ := by ext <;> simp <;> norm_num
    have e1 : ((⟨toF R w, toF R k⟩ : V2 (Fl R)) / (1 + 1 : Fl R)) = toV2 R ⟨w / 2, k / 2⟩ := by
      rw [e2]
      ext
      · exact toF_div rw' h.two
      · exact toF_div rk h.two
    have rp : Rp R (⟨w / 2, k / 2⟩ : V2 ℝ) := ⟨rw2, rk2⟩
    have sp : Sz M (⟨w / 2, k / 2⟩ : V2 ℝ) := ⟨by rw [abs_of_nonneg (by positivity)]; exact wM, by rw [abs_of_nonneg (by positivity)]; exact kM⟩
    rw [e1, eh, toV2_neg rp, boxR_new]
    exact ⟨rfl, RpBox.new ⟨rp.neg h sp hMΩ, sp.neg⟩ ⟨rp, sp⟩⟩
  cases s with
  | particle => exact ⟨boxR_zero, RpBox.new z z⟩
  | line l => exact ⟨boxR_new _ _, RpBox.new hs.1 hs.2⟩
  | rectangle w k => exact half w k hs.1.1 hs.1.2 hs.2.1.1 hs.2.1.2 hs.2.2.1.1 hs.2.2.1.2 hs.2.2.2.1 hs.2.2.2.2
  | square w => exact half w w hs.1 hs.1 hs.2.1 hs.2.1 hs.2.2.1 hs.2.2.1 hs.2.2.2 hs.2.2.2
  | polygon vs =>
    have hv := hs.2.2
    have key : ∀ (vs : List (V2 ℝ)) (b : Aabb2 ℝ), (∀ v ∈ vs, Rp R v ∧ Sz M v) → RpBox R M b →
        (vs.map (toV2 R)).foldl (fun b p => b.grow p) (boxR R b) = boxR R (vs.foldl (fun b p => b.grow p) b) ∧ RpBox R M (vs.foldl (fun b p => b.grow p) b) := by
      intro vs
      induction vs with
      | nil => exact fun b _ hb => ⟨rfl, hb⟩
      | cons v vs ih =>
        intro b hv hb
        simp only [List.map_cons, List.foldl_cons, boxR_grow]
        exact ih _ (fun w hw => hv w (by simp [hw])) (hb.grow (hv v (by simp)))
    have := key vs Aabb2.zero hv (RpBox.new z z)
    show (vs.map (toV2 R)).foldl (fun b p => b.grow p) (Aabb2.zero : Aabb2 (Fl R)) = _ ∧ _
    rw [boxR_zero]
    exact this

/-- The corners of a box with representable coordinates. -/
theorem corners_rp {b : Aabb2 ℝ} (hb : RpBox R M b) : ∀ c ∈ b.toCorners, Rp R c ∧ Sz M c := by
  obtain ⟨⟨⟨h1, h2⟩, h3, h4⟩, ⟨h5, h6⟩, h7, h8⟩ := hb
  intro c hc
  simp only [Aabb2.toCorners, List.mem_cons, List.not_mem_nil, or_false] at hc
  rcases hc with rfl | rfl | rfl | rfl
  · exact ⟨⟨h1, h2⟩, h3, h4⟩
  · exact ⟨⟨h5, h2⟩, h7, h4⟩
  · exact ⟨⟨h1, h6⟩, h3, h8⟩
  · exact ⟨⟨h5, h6⟩, h7, h8⟩

/-- Boxes of which every coordinate differs by at most `δ`. -/
def BoxNear (δ : ℝ) (a b : Aabb2 ℝ) : Prop := Sz δ (a.min - b.min) ∧ Sz δ (a.max - b.max)

theorem near_min {a b c d δ : ℝ} (h1 : |a - c| ≤ δ) (h2 : |b - d| ≤ δ) : |min a b - min c d| ≤ δ := by
  rw [abs_le] at *
  constructor
  · rcases min_cases a b with h | h <;> rcases min_cases c d with k | k <;> linarith
  · rcases min_cases a b with h | h <;> rcases min_cases c d with k | k <;> linarith
theorem near_max {a b c d δ : ℝ} (h1 : |a - c| ≤ δ) (h2 : |b - d| ≤ δ) : |max a b - max c d| ≤ δ := by
  rw [abs_le] at *
  constructor
  · rcases max_cases a b with h | h <;> rcases max_cases c d with k | k <;> linarith
  · rcases max_cases a b with h | h <;> rcases max_cases c d with k | k <;> linarith

theorem BoxNear.grow {δ : ℝ} {a b : Aabb2 ℝ} {p q : V2 ℝ} (h : BoxNear δ a b) (hp : Sz δ (p - q)) : BoxNear δ (a.grow p) (b.grow q) := by
  obtain ⟨⟨h1, h2⟩, h3, h4⟩ := h
  obtain ⟨p1, p2⟩ := hp
  simp only [V2.sub_x, V2.sub_y] at *
  unfold BoxNear Sz Aabb2.grow Aabb2.new V2.pmin V2.pmax
  simp only [pmin_eq, pmax_eq, V2.sub_x, V2.sub_y]
  exact ⟨⟨near_min (near_min h1 p1) (near_max h3 p1), near_min (near_min h2 p2) (near_max h4 p2)⟩, near_max (near_min h1 p1) (near_max h3 p1), near_max (near_min h2 p2) (near_max h4 p2)⟩
theorem BoxNear.point {δ : ℝ} {p q : V2 ℝ} (hp : Sz δ (p - q)) : BoxNear δ (Aabb2.new p p) (Aabb2.new q q) := by
  unfold Aabb2.new
  simp only [pmin_eq, pmax_eq, min_self, max_self]
  exact ⟨hp, hp⟩

/-- **C108, the bound**: in rounded arithmetic the bound of a placed shape differs from the exact bound by rounding errors only. -/
theorem c108_box (h : Std R u η Ω) (hM : 1 ≤ M) (hΩ : 4 * M ≤ Ω) {s : Flat2 ℝ} {D : Dec2 ℝ} (hs : s.Fits R M) (hD : Fits2 R M D) :
    ∃ B : Aabb2 ℝ, worldBoxG (s.toFl R) (decF R D) = boxR R B ∧ RpBox R (5 * M) B ∧ BoxNear (9 * (u * M) + 5 * η) B (worldBox2 (s.prim, D)) := by
  obtain ⟨e, hb⟩ := bound_exact h (by linarith) (by linarith) hs
  have hc := corners_rp hb
  have hp : ∀ v : V2 ℝ, ∃ w : V2 ℝ, Rp R v ∧ Sz M v → Rp R w ∧ Sz (5 * M) w ∧ pointG2 (decF R D) (toV2 R v) = toV2 R w ∧ Sz (9 * (u * M) + 5 * η) (w - D.tr.point v) := by
    intro v
    by_cases hv : Rp R v ∧ Sz M v
    · obtain ⟨w, hw⟩ := point_near h hD hM hv.1 hv.2 hΩ
      exact ⟨w, fun _ => hw⟩
    · exact ⟨0, fun h => absurd h hv⟩
  choose w hw using hp
  have cm : ∀ c ∈ (boundG s).toCorners, Rp R (w c) ∧ Sz (5 * M) (w c) ∧ pointG2 (decF R D) (toV2 R c) = toV2 R (w c) ∧ Sz (9 * (u * M) + 5 * η) (w c - D.tr.point c) := fun c h => hw c (hc c h)
  have key : ∀ (l : List (V2 ℝ)) (A B : Aabb2 ℝ), (∀ c ∈ l, c ∈ (boundG s).toCorners) → RpBox R (5 * M) A → BoxNear (9 * (u * M) + 5 * η) A B →
      (l.map (toV2 R)).foldl (fun u c => u.grow (pointG2 (decF R D) c)) (boxR R A) = boxR R (l.foldl (fun u c => u.grow (w c)) A) ∧
      RpBox R (5 * M) (l.foldl (fun u c => u.grow (w c)) A) ∧
      BoxNear (9 * (u * M) + 5 * η) (l.foldl (fun u c => u.grow (w c)) A) (l.foldl (fun u c => u.grow (D.tr.point c)) B) := by
    intro l
    induction l with
    | nil => exact fun A B _ h1 h2 => ⟨rfl, h1, h2⟩
    | cons c l ih =>
      intro A B hl h1 h2
      obtain ⟨c1, c2, c3, c4⟩ := cm c (hl c (by simp))
      simp only [List.map_cons, List.foldl_cons]
      rw [c3, boxR_grow]
      exact ih _ _ (fun d hd => hl d (by simp [hd])) (h1.grow ⟨c1, c2⟩) (h2.grow c4)
  obtain ⟨m1, m2, m3, m4⟩ := cm (boundG s).min (by simp [Aabb2.toCorners])
  obtain ⟨k1, k2, k3⟩ := key (boundG s).toCorners.tail _ _ (fun c hc => List.mem_of_mem_tail hc) (RpBox.new ⟨m1, m2⟩ ⟨m1, m2⟩) (BoxNear.point m4)
  refine ⟨_, ?_, k2, ?_⟩
  · rw [← k1, ← boxR_new, ← m3]
    unfold worldBoxG Aabb2.transform
    rw [e]
    rfl
  · unfold worldBox2 Aabb2.transform
    rw [← boundG_real]
    exact k3

theorem boxR_intersects {A B : Aabb2 ℝ} {M N : ℝ} (hA : RpBox R M A) (hB : RpBox R N B) : (boxR R A).intersects (boxR R B) = A.intersects B := by
  obtain ⟨⟨⟨a1, a2⟩, -⟩, ⟨a3, a4⟩, -⟩ := hA
  obtain ⟨⟨⟨b1, b2⟩, -⟩, ⟨b3, b4⟩, -⟩ := hB
  unfold Aabb2.intersects boxR toV2
  simp only [gt_iff_lt, toF_lt a1 b3, toF_lt b1 a3, toF_lt a2 b4, toF_lt b2 a4]
end rounded

/-! ## `f64` -/

/-- A flat shape and its placement; the coordinates are real numbers that `f64` can hold (`Ok64`). -/
abbrev Item64 := Flat2 ℝ × Dec2 ℝ
/-- All coordinates are numbers of `f64` of at most `M`, and multiples of `2^-170`; no scaling. -/
structure Item64.Ok (M : ℝ) (a : Item64) : Prop where
  shape : a.1.Fits binary64 M
  place : Fits2 binary64 M a.2
  fine : a.1.Fine (2 ^ 170)
  fineD : Fine2 (2 ^ 170) a.2
/-- The points of an item. -/
def Item64.At (a : Item64) : V2 ℝ → Prop := Image a.2.tr a.1.prim.Points
/-- The bound of an item as `f64` computes it. -/
def box64 (a : Item64) : Aabb2 (Fl binary64) := worldBoxG (a.1.toFl binary64) (decF binary64 a.2)
/-- The narrow phase of an item pair in `f64`: `GJK2::intersect`. -/
def run64 (a b : Item64) : Res (Out (V2 (Fl binary64))) :=
  gjkRunG2 (toF binary64 eps64) 100 ((a.1.toFl binary64).supportG (decF binary64 a.2)) ((b.1.toFl binary64).supportG (decF binary64 b.2)) (pointG2 (decF binary64 a.2) 0) (pointG2 (decF binary64 b.2) 0)
/-- Is there a simplex? -/
def narrow64 (a b : Item64) : Res Bool := do
  let o ← run64 a b
  return o.toOption.isSome
/-- The rounding error of a bound, `10 * 2^-53` times the largest coordinate. -/
def slack (M : ℝ) : ℝ := 10 * ((2 : ℝ) ^ (-53 : ℤ) * M)
/-- The exact bounds overlap, or are apart by at most `δ`, along both axes. -/
def BoundsMeet (δ : ℝ) (a b : Item64) : Prop :=
  let A := worldBox2 (a.1.prim, a.2)
  let B := worldBox2 (b.1.prim, b.2)
  B.min.x < A.max.x + δ ∧ A.min.x < B.max.x + δ ∧ B.min.y < A.max.y + δ ∧ A.min.y < B.max.y + δ

variable {M : ℝ}
theorem prim_ok {s : Flat2 ℝ} (hs : s.Fits binary64 M) : s.prim.Ok := by
  cases s with
  | particle => trivial
  | line l => trivial
  | rectangle w k => exact ⟨w, k, hs.1.1, hs.1.2, rfl⟩
  | square w => exact ⟨w, hs.1, rfl⟩
  | polygon vs => exact ⟨hs.1, hs.2.1⟩

/-- **C108, the bound in `f64`**: every coordinate is within `10 * 2^-53 * M` of the exact bound; so every point of the item is in the bound enlarged by that much. -/
theorem c108_f64_box (hM : 1 ≤ M) (hM' : M ≤ 2 ^ 249) {a : Item64} (ha : a.Ok M) :
    ∃ B : Aabb2 ℝ, box64 a = boxR binary64 B ∧ RpBox binary64 (5 * M) B ∧ BoxNear (slack M) B (worldBox2 (a.1.prim, a.2)) ∧
      ∀ p, a.At p → (B.min.x - slack M ≤ p.x ∧ p.x ≤ B.max.x + slack M) ∧ (B.min.y - slack M ≤ p.y ∧ p.y ≤ B.max.y + slack M) := by
  obtain ⟨B, h1, h2, h3⟩ := c108_box std64 hM (by
    have h1 : 4 * M ≤ 2 ^ 2 * 2 ^ 249 := by linarith
    rw [← pow_add] at h1
    refine h1.trans ?_
    rw [← zpow_natCast]
    exact zpow_le_zpow_right₀ (by norm_num) (by norm_num)) ha.shape ha.place
  have hη : 5 * (2 : ℝ) ^ (-1075 : ℤ) ≤ (2 : ℝ) ^ (-53 : ℤ) * M := by
    have q1 : (2 : ℝ) ^ (-1075 : ℤ) ≤ (2 : ℝ) ^ (-56 : ℤ) := zpow_le_zpow_right₀ (by norm_num) (by norm_num)
    have q2 : (2 : ℝ) ^ (-53 : ℤ) = 8 * (2 : ℝ) ^ (-56 : ℤ) := by norm_num
    have q3 : (0 : ℝ) < (2 : ℝ) ^ (-56 : ℤ) := zpow_pos (by norm_num) _
    have q4 : (2 : ℝ) ^ (-53 : ℤ) * 1 ≤ (2 : ℝ) ^ (-53 : ℤ) * M := mul_le_mul_of_nonneg_left hM (zpow_pos (by norm_num) _).le
    linarith
  have h4 : BoxNear (slack M) B (worldBox2 (a.1.prim, a.2)) := ⟨h3.1.mono (by unfold slack; linarith), h3.2.mono (by unfold slack; linarith)⟩
  refine ⟨B, h1, h2, h4, fun p hp => ?_⟩
  obtain ⟨⟨m1, m2⟩, m3, m4⟩ := worldBox2_mem (a := (a.1.prim, a.2)) (prim_ok ha.shape) hp
  obtain ⟨⟨n1, n2⟩, n3, n4⟩ := h4
  simp only [V2.sub_x, V2.sub_y, abs_le] at n1 n2 n3 n4
  exact ⟨⟨by linarith, by linarith⟩, by linarith, by linarith⟩

theorem axis_norm {r : ℝ} (hr : 0 ≤ r) : (⟨r, 0⟩ : V2 ℝ).norm ≤ r ∧ (⟨-r, 0⟩ : V2 ℝ).norm ≤ r ∧ (⟨0, r⟩ : V2 ℝ).norm ≤ r ∧ (⟨0, -r⟩ : V2 ℝ).norm ≤ r := by
  have : Real.sqrt (r * r) = r := Real.sqrt_mul_self hr
  refine ⟨?_, ?_, ?_, ?_⟩ <;> simp [V2.norm, V2.dot, this]

/-- **C108, pairs of bounds in `f64`**: the bounds of items that overlap by more than rounding intersect; bounds that intersect belong to items with exact bounds that meet up to rounding. -/
theorem c108_f64_test (hM : 1 ≤ M) (hM' : M ≤ 2 ^ 249) {a b : Item64} (ha : a.Ok M) (hb : b.Ok M) :
    (∀ r, 2 * slack M < r → Deep2 a.At b.At r → (box64 a).intersects (box64 b) = true) ∧ ((box64 a).intersects (box64 b) = true → BoundsMeet (2 * slack M) a b) := by
  obtain ⟨A, a1, a2, a3, a4⟩ := c108_f64_box hM hM' ha
  obtain ⟨B, b1, b2, b3, b4⟩ := c108_f64_box hM hM' hb
  have s0 : 0 ≤ slack M := mul_nonneg (by norm_num) (mul_nonneg (zpow_pos (by norm_num) _).le (by linarith))
  rw [a1, b1, boxR_intersects a2 b2]
  constructor
  · intro r hr hd
    obtain ⟨e1, e2, e3, e4⟩ := axis_norm (r := r) (by linarith)
    simp only [Aabb2.intersects, Bool.and_eq_true, decide_eq_true_eq]
    refine ⟨⟨⟨?_, ?_⟩, ?_⟩, ?_⟩
    · obtain ⟨x, y, hx, hy, e⟩ := hd _ e1
      have := congrArg V2.x e
      simp only [V2.sub_x] at this
      linarith [(a4 x hx).1.2, (b4 y hy).1.1]
    · obtain ⟨x, y, hx, hy, e⟩ := hd _ e2
      have := congrArg V2.x e
      simp only [V2.sub_x] at this
      linarith [(a4 x hx).1.1, (b4 y hy).1.2]
    · obtain ⟨x, y, hx, hy, e⟩ := hd _ e3
      have := congrArg V2.y e
      simp only [V2.sub_y] at this
      linarith [(a4 x hx).2.2, (b4 y hy).2.1]
    · obtain ⟨x, y, hx, hy, e⟩ := hd _ e4
      have := congrArg V2.y e
      simp only [V2.sub_y] at this
      linarith [(a4 x hx).2.1, (b4 y hy).2.2]
  · intro h
    simp only [Aabb2.intersects, Bool.and_eq_true, decide_eq_true_eq] at h
    obtain ⟨⟨⟨h1, h2⟩, h3⟩, h4⟩ := h
    obtain ⟨⟨n1, n2⟩, n3, n4⟩ := a3
    obtain ⟨⟨m1, m2⟩, m3, m4⟩ := b3
    simp only [V2.sub_x, V2.sub_y, abs_le] at n1 n2 n3 n4 m1 m2 m3 m4
    exact ⟨by linarith, by linarith, by linarith, by linarith⟩

/-- **C108, the narrow phase on the pairs of a broad phase, all in `f64`**: it answers; the pairs kept have exact bounds that meet up to rounding; a pair of items that overlap by more than rounding is kept,
unless GJK used all its iterations on it. -/
theorem confirm64 (hM : 1 ≤ M) (hM' : M ≤ 2 ^ 249) {scene : List Item64} (hok : ∀ a ∈ scene, a.Ok M) {pairs : List (Nat × Nat)} {Q : Nat → Nat → Prop}
    (hp : ∀ i j, (i, j) ∈ pairs ↔ i < j ∧ Hit box64 Aabb2.intersects scene i j ∧ Q i j) :
    ∃ found, confirm narrow64 scene pairs = .ok found ∧ found.Sublist pairs ∧
      (∀ i j, (i, j) ∈ found → i < j ∧ Q i j ∧ ∃ a b, scene[i]? = some a ∧ scene[j]? = some b ∧ BoundsMeet (2 * slack M) a b) ∧
      ∀ i j a b r, i < j → Q i j → scene[i]? = some a → scene[j]? = some b → 1536 * ((2 : ℝ) ^ (-53 : ℤ) * M) < r → Deep2 a.At b.At r → (i, j) ∈ found ∨ run64 a b = .ok .exhausted := by
  have mem : ∀ {i : Nat} {a}, scene[i]? = some a → a ∈ scene := fun h => List.mem_of_getElem? h
  have ans : ∀ a b : Item64, a ∈ scene → b ∈ scene → ∃ o, run64 a b = .ok o ∧ ∀ r, 1536 * ((2 : ℝ) ^ (-53 : ℤ) * M) < r → Deep2 a.At b.At r → o ≠ .miss := by
    intro a b ha hb
    have oa := hok a ha
    have ob := hok b hb
    obtain ⟨o, ho, h⟩ := c106_f64_2d hM hM' oa.shape ob.shape oa.place ob.place oa.fine ob.fine oa.fineD ob.fineD 100
    exact ⟨o, ho, fun r hr hd e => deep_not_nearly hr (mul_nonneg (by norm_num) (mul_nonneg (zpow_pos (by norm_num) _).le (by linarith))) hd (h e)⟩
  let q : Nat × Nat → Bool := fun p => match scene[p.1]?, scene[p.2]? with
    | some a, some b => decide (narrow64 a b = .ok true)
    | _, _ => false
  have hq : ∀ p ∈ pairs, (do
      let a ← Res.ofOption scene[p.1]?
      let b ← Res.ofOption scene[p.2]?
      narrow64 a b) = Res.ok (q p) := by
    rintro ⟨i, j⟩ hij
    obtain ⟨-, ⟨a, b, ha, hb, -⟩, -⟩ := (hp i j).1 hij
    obtain ⟨o, h1, -⟩ := ans a b (mem ha) (mem hb)
    dsimp only [q]
    rw [ha, hb]
    show narrow64 a b = _
    have e : narrow64 a b = .ok o.toOption.isSome := by
      unfold narrow64
      rw [h1, Res.bind_ok]
      rfl
    show narrow64 a b = Res.ok (decide (narrow64 a b = .ok true))
    rw [e]
    cases o.toOption.isSome with
    | true => rw [decide_eq_true rfl]
    | false => rw [decide_eq_false (by intro h; cases h)]
  refine ⟨pairs.filter q, retainRes_ok _ q pairs hq, List.filter_sublist, ?_, ?_⟩
  · intro i j h
    obtain ⟨h1, h2⟩ := List.mem_filter.1 h
    obtain ⟨k1, ⟨a, b, ha, hb, k2⟩, k3⟩ := (hp i j).1 h1
    exact ⟨k1, k3, a, b, ha, hb, (c108_f64_test hM hM' (hok a (mem ha)) (hok b (mem hb))).2 k2⟩
  · intro i j a b r hij hQ ha hb hr hd
    obtain ⟨o, h1, h2⟩ := ans a b (mem ha) (mem hb)
    have s0 : (0 : ℝ) < (2 : ℝ) ^ (-53 : ℤ) * M := mul_pos (zpow_pos (by norm_num) _) (by linarith)
    have hit := (c108_f64_test hM hM' (hok a (mem ha)) (hok b (mem hb))).1 r (by unfold slack; linarith) hd
    cases o with
    | miss => exact absurd rfl (h2 r hr hd)
    | exhausted => exact Or.inr h1
    | hit x =>
      refine Or.inl (List.mem_filter.2 ⟨(hp i j).2 ⟨hij, ⟨a, b, ha, hb, hit⟩, hQ⟩, ?_⟩)
      dsimp only [q]
      rw [ha, hb]
      dsimp only
      have e : narrow64 a b = .ok true := by
        unfold narrow64
        rw [h1, Res.bind_ok]
        rfl
      exact decide_eq_true e

/-- What the pipeline finds in a scene: no pair twice; each pair has exact bounds that meet up to rounding; all pairs that overlap by more than rounding, unless GJK used all its iterations. -/
def Found64 (M : ℝ) (scene : List Item64) (found : List (Nat × Nat)) : Prop :=
  found.Nodup ∧ (∀ i j, (i, j) ∈ found → i < j ∧ ∃ a b, scene[i]? = some a ∧ scene[j]? = some b ∧ BoundsMeet (2 * slack M) a b) ∧
    ∀ i j a b r, i < j → scene[i]? = some a → scene[j]? = some b → 1536 * ((2 : ℝ) ^ (-53 : ℤ) * M) < r → Deep2 a.At b.At r → (i, j) ∈ found ∨ run64 a b = .ok .exhausted

/-- **C108 with brute force, in `f64`.** -/
theorem c108_brute (hM : 1 ≤ M) (hM' : M ≤ 2 ^ 249) (scene : List Item64) (hok : ∀ a ∈ scene, a.Ok M) :
    ∃ pairs found, bruteForce box64 Aabb2.intersects scene = .ok pairs ∧ confirm narrow64 scene pairs = .ok found ∧ Found64 M scene found := by
  obtain ⟨l, h1, h2, h3⟩ := c19_brute_force box64 Aabb2.intersects scene
  obtain ⟨f, k1, k2, k3, k4⟩ := confirm64 hM hM' hok (pairs := l) (Q := fun _ _ => True) (by intro i j; rw [h3]; simp)
  exact ⟨l, f, h1, k1, k2.nodup h2.nodup, fun i j h => ⟨(k3 i j h).1, (k3 i j h).2.2⟩, fun i j a b r hij => k4 i j a b r hij trivial⟩

/-- **C108 with sweep and prune, in `f64`**, any axis and any variance (its numbers may be NaN): the positions are those in the list as the algorithm leaves it. -/
theorem c108_sweep {σ : Type} (hM : 1 ≤ M) (hM' : M ≤ 2 ^ 249) (v : VarOps σ (Aabb2 (Fl binary64))) (s : Sap σ) (hax : s.sweep_axis < 2) (scene : List Item64) (hok : ∀ a ∈ scene, a.Ok M) :
    ∃ pairs scene' s' found, s.findColliderPairs sapAabb2 v box64 scene = .ok (pairs, scene', s') ∧ scene'.Perm scene ∧ confirm narrow64 scene' pairs = .ok found ∧ Found64 M scene' found := by
  obtain ⟨l, scene', s', h1, h2, h3, h4⟩ := c20_boxes2 v box64 s scene hax
  obtain ⟨f, k1, k2, k3, k4⟩ := confirm64 hM hM' (fun a ha => hok a (h2.mem_iff.1 ha)) (scene := scene') (pairs := l) (Q := fun _ _ => True) (by intro i j; rw [h4]; simp)
  exact ⟨l, scene', s', f, h1, h2, k1, k2.nodup h3, fun i j h => ⟨(k3 i j h).1, (k3 i j h).2.2⟩, fun i j a b r hij => k4 i j a b r hij trivial⟩

/-- **C108 with a tree built from the scene, in `f64`** (at most 256 items, every item dirty; the margin is added with rounding; surface areas may be NaN): the list found is that of brute force. -/
theorem c108_tree {S : Type} (hM : 1 ≤ M) (hM' : M ≤ 2 ^ 249) (margin : V2 F64) (hx : binary64.zero ≤ margin.x) (hy : binary64.zero ≤ margin.y) (area : Aabb2 F64 → S) (lt : S → S → Bool)
    (sub div : S → S → S) (im : S) (scene : List Item64) (hok : ∀ a ∈ scene, a.Ok M) (hlen : scene.length ≤ 256) (rng : Nat → Nat) :
    ∃ h s pairs found, Exec (roundOps2 (V := Item64) (K := F64) box64 (fun a => addMarginF2 binary64 (box64 a) margin) area lt sub div im) h s ∧ s.values.map Prod.snd = scene ∧
      dbvtPairs (roundOps2 (V := Item64) (K := F64) box64 (fun a => addMarginF2 binary64 (box64 a) margin) area lt sub div im) Aabb2.intersects s (List.replicate scene.length true) = .ok pairs ∧
      bruteForce box64 Aabb2.intersects scene = .ok pairs ∧ confirm narrow64 scene pairs = .ok found ∧ Found64 M scene found := by
  obtain ⟨h, s, he, hd, hu, hr, hv⟩ := build_tree (roundOps2 (V := Item64) (K := F64) box64 (fun a => addMarginF2 binary64 (box64 a) margin) area lt sub div im) scene rng
  have hl : s.values.length = scene.length := by rw [← hv, List.length_map]
  obtain ⟨n, hh, -, -, hn, -⟩ := c04_height _ he hr
  obtain ⟨pairs, found, b1, b2, b3⟩ := c108_brute hM hM' scene hok
  rcases (c81_pairs2 _ _ area lt sub div im (fun v => (c99_margin2 binary64 (box64 v) margin hx hy).2) he hd hu hr hh).2 with ⟨l, h1, h2⟩ | ⟨h1, -⟩
  · refine ⟨h, s, pairs, found, he, hv, ?_, b1, b2, b3⟩
    rw [hl] at h1
    rw [h1]
    have : bruteForce (fun e : Nat × Item64 => box64 e.2) Aabb2.intersects s.values = bruteForce box64 Aabb2.intersects (s.values.map Prod.snd) := by
      unfold bruteForce
      simp only [List.length_map, List.getElem?_map, ofOption_map, mapOk_bind]
    have h2' : bruteForce (fun e : Nat × Item64 => box64 e.2) Aabb2.intersects s.values = .ok l := h2
    rw [this, hv, b1] at h2'
    cases h2'
    rfl
  · omega

/-- A case of the theorem: the squares of `c106_example`, and a third one far away: in `f64` the pair is reported by brute force, the far square is in no pair, and the narrow phase does not miss the pair. -/
theorem c108_example : ∃ pairs, bruteForce box64 Aabb2.intersects [(Flat2.square 4, caseD), (Flat2.square 4, caseE), (Flat2.square 4, (⟨1, ⟨⟨1, 0⟩, ⟨0, 1⟩⟩, ⟨16, 0⟩⟩ : Dec2 ℝ))] = .ok pairs ∧
    pairs = [(0, 1)] ∧ ∃ o, run64 (Flat2.square 4, caseD) (Flat2.square 4, caseE) = .ok o ∧ o ≠ .miss := by
  obtain ⟨⟨hs, fs⟩, hD, hE, gD, gE, hdeep⟩ := c106_case
  have big : ∀ {D : Dec2 ℝ}, Fits2 binary64 2 D → Fits2 binary64 16 D := fun h => ⟨h.scale, h.r0, h.r1, h.s0, h.s1, h.rd, h.sd.mono (by norm_num)⟩
  have hs' : (Flat2.square 4 : Flat2 ℝ).Fits binary64 16 := ⟨hs.1, hs.2.1, hs.2.2.1, hs.2.2.2.trans (by norm_num)⟩
  have r16 : Rep binary64 16 := rep_of_rep64 ⟨16, 0, by norm_num, by norm_num, by norm_num, by norm_num⟩
  have hF : Fits2 binary64 16 (⟨1, ⟨⟨1, 0⟩, ⟨0, 1⟩⟩, ⟨16, 0⟩⟩ : Dec2 ℝ) := ⟨rfl, hD.r0, hD.r1, hD.s0, hD.s1, ⟨r16, rep_zero⟩, by norm_num, by norm_num⟩
  have gF : Fine2 (2 ^ 170) (⟨1, ⟨⟨1, 0⟩, ⟨0, 1⟩⟩, ⟨16, 0⟩⟩ : Dec2 ℝ) := ⟨gD.1, gD.2, ⟨⟨16 * 2 ^ 170, by norm_num⟩, gD.3.2⟩⟩
  have o1 : Item64.Ok 16 (Flat2.square 4, caseD) := ⟨hs', big hD, fs, gD⟩
  have o2 : Item64.Ok 16 (Flat2.square 4, caseE) := ⟨hs', big hE, fs, gE⟩
  have o3 : Item64.Ok 16 (Flat2.square 4, (⟨1, ⟨⟨1, 0⟩, ⟨0, 1⟩⟩, ⟨16, 0⟩⟩ : Dec2 ℝ)) := ⟨hs', hF, fs, gF⟩
  obtain ⟨l, h1, h2, h3⟩ := c19_brute_force box64 Aabb2.intersects [(Flat2.square 4, caseD), (Flat2.square 4, caseE), (Flat2.square 4, (⟨1, ⟨⟨1, 0⟩, ⟨0, 1⟩⟩, ⟨16, 0⟩⟩ : Dec2 ℝ))]
  have t12 := (c108_f64_test (M := 16) (by norm_num) (by norm_num) o1 o2).1 (1 / 4) (by norm_num [slack]) hdeep
  have eb : (Flat2.square 4 : Flat2 ℝ).prim.bound = ⟨⟨-2, -2⟩, ⟨2, 2⟩⟩ := by
    rw [← boundG_real]
    simp only [boundG, Aabb2.new, pmin_eq, pmax_eq]
    ext <;> norm_num
  have no : ∀ D : Dec2 ℝ, D.scale = 1 → Sz 1 D.rot.c0 → Sz 1 D.rot.c1 → Sz 2 D.disp → ¬ BoundsMeet (2 * slack 16) (Flat2.square 4, D) (Flat2.square 4, (⟨1, ⟨⟨1, 0⟩, ⟨0, 1⟩⟩, ⟨16, 0⟩⟩ : Dec2 ℝ)) := by
    rintro D e ⟨q1, q2⟩ ⟨q3, q4⟩ ⟨q5, q6⟩ ⟨h, -⟩
    rw [abs_le] at q1 q2 q3 q4 q5 q6
    have k1 := contains_iff2.1 ((c28_transform2 (Flat2.square 4 : Flat2 ℝ).prim.bound D.tr.point).2.2 ⟨⟨-6, -6⟩, ⟨6, 6⟩⟩ (by
      rw [eb]
      intro c hc
      simp only [Aabb2.toCorners, List.mem_cons, List.not_mem_nil, or_false] at hc
      rcases hc with rfl | rfl | rfl | rfl <;>
        (simp only [Aabb2.Mem, Dec2.tr, M2.apply, e, V2.add_x, V2.add_y, V2.mul_x, V2.mul_y]; exact ⟨⟨by linarith, by linarith⟩, by linarith, by linarith⟩)))
    have k2 := contains_iff2.1 ((c28_transform2 (Flat2.square 4 : Flat2 ℝ).prim.bound (⟨1, ⟨⟨1, 0⟩, ⟨0, 1⟩⟩, ⟨16, 0⟩⟩ : Dec2 ℝ).tr.point).2.2 ⟨⟨14, -2⟩, ⟨18, 2⟩⟩ (by
      rw [eb]
      intro c hc
      simp only [Aabb2.toCorners, List.mem_cons, List.not_mem_nil, or_false] at hc
      rcases hc with rfl | rfl | rfl | rfl <;>
        (simp only [Aabb2.Mem, Dec2.tr, M2.apply, V2.add_x, V2.add_y, V2.mul_x, V2.mul_y]; norm_num)))
    have k3 := k1.1.2
    have k4 := k2.1.1
    have h' : (worldBox2 ((Flat2.square 4 : Flat2 ℝ).prim, (⟨1, ⟨⟨1, 0⟩, ⟨0, 1⟩⟩, ⟨16, 0⟩⟩ : Dec2 ℝ))).min.x < (worldBox2 ((Flat2.square 4 : Flat2 ℝ).prim, D)).max.x + 2 * slack 16 := h
    unfold worldBox2 at h'
    have hs : 2 * slack 16 ≤ 1 := by norm_num [slack]
    dsimp only at h' k3 k4
    linarith
  have n13 : (box64 (Flat2.square 4, caseD)).intersects (box64 (Flat2.square 4, (⟨1, ⟨⟨1, 0⟩, ⟨0, 1⟩⟩, ⟨16, 0⟩⟩ : Dec2 ℝ))) = false := by
    by_contra hc
    rw [Bool.not_eq_false] at hc
    exact no _ hD.scale hD.s0 hD.s1 hD.sd ((c108_f64_test (M := 16) (by norm_num) (by norm_num) o1 o3).2 hc)
  have n23 : (box64 (Flat2.square 4, caseE)).intersects (box64 (Flat2.square 4, (⟨1, ⟨⟨1, 0⟩, ⟨0, 1⟩⟩, ⟨16, 0⟩⟩ : Dec2 ℝ))) = false := by
    by_contra hc
    rw [Bool.not_eq_false] at hc
    exact no _ hE.scale hE.s0 hE.s1 hE.sd ((c108_f64_test (M := 16) (by norm_num) (by norm_num) o2 o3).2 hc)
  refine ⟨l, h1, ?_, c106_example 100⟩
  have hm : ∀ i j, (i, j) ∈ l ↔ (i, j) = (0, 1) := by
    intro i j
    rw [h3]
    constructor
    · rintro ⟨hij, a, b, ha, hb, ht⟩
      have hj : j < 3 := (List.getElem?_eq_some_iff.1 hb).1
      interval_cases j <;> interval_cases i
      · rfl
      · simp only [List.getElem?_cons_zero, List.getElem?_cons_succ, Option.some.injEq] at ha hb
        rw [← ha, ← hb, n13] at ht
        cases ht
      · simp only [List.getElem?_cons_zero, List.getElem?_cons_succ, Option.some.injEq] at ha hb
        rw [← ha, ← hb, n23] at ht
        cases ht
    · intro e
      cases e
      exact ⟨by omega, _, _, rfl, rfl, t12⟩
  match l, h2, hm with
  | [], _, hm => exact absurd ((hm 0 1).2 rfl) (by simp)
  | [p], _, hm =>
    have := (hm p.1 p.2).1 (by simp)
    rw [show p = (0, 1) from this]
  | p :: q :: l, h2, hm =>
    have e1 : p = (0, 1) := (hm p.1 p.2).1 (by simp)
    have e2 : q = (0, 1) := (hm q.1 q.2).1 (by simp)
    have := h2.nodup
    rw [e1, e2] at this
    simp at this
end
end Verif.Scene
