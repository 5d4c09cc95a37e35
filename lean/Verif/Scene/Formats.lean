import Verif.Scene.Subnormal
import Verif.Scene.F64Pipeline3
import Verif.Minkowski.F32
/-!
# The pipelines in `f32` and `f64`, for all coordinates of the format (C115, C116)

The theorems hold for every floating-point format (`Fmt`); `f32` and `f64` are two. C108 and C113 are about `f64` coordinates on a grid; here there is no grid.
-/
namespace Verif.Scene
open Verif Geom Primitive Minkowski BroadPhase Dbvt
open Verif.Dbvt (Rounding F64 binary64 Rep64)
open Verif.Dbvt.B32 (F32 binary32 Rep32)
set_option linter.unusedSectionVars false
noncomputable section
open Classical

/-- A floating-point format: relative error `u`, underflow error `η`, results up to `Ω`; `τ` is the smallest normal number, `eps` its `EPSILON` and `tenth` its `0.1`. -/
structure Fmt {F : Type} [LinearOrder F] (R : Rounding F) (u η Ω τ : ℝ) (eps tenth : Fl R) : Prop where
  std : Std R u η Ω
  u0 : 0 < u
  τ0 : 0 < τ
  τ1 : τ ≤ 1 / 8
  ητ : η ≤ u * τ
  eps : 0 ≤ eps
  tenth : GoodTenth R tenth

variable {F : Type} [LinearOrder F] {R : Rounding F} {u η Ω τ M : ℝ} {eps tenth : Fl R}

theorem tenth_good (h : Std R u η Ω) (h0 : 1 ≤ Ω) (h1 : u ≤ 1 / 1024) (h2 : η ≤ u) : GoodTenth R (toF R (1 / 10)) := by
  obtain ⟨y, ry, e, d⟩ := h.err (1 / 10) (by
    rw [abs_of_nonneg (by norm_num)]
    linarith)
  rw [abs_of_nonneg (by norm_num : (0 : ℝ) ≤ 1 / 10), abs_le] at d
  refine ⟨y, e, ry, ?_, ?_⟩
  · rw [abs_of_nonneg (by linarith)]; linarith
  · rw [abs_of_nonneg (by linarith)]; linarith

/-- `f32`: the smallest normal number `f32::MIN_POSITIVE` is `2^-126`. -/
theorem fmt32 : Fmt binary32 ((2 : ℝ) ^ (-24 : ℤ)) ((2 : ℝ) ^ (-150 : ℤ)) ((2 : ℝ) ^ (126 : ℤ)) ((2 : ℝ) ^ (-126 : ℤ)) (toF binary32 eps32) (toF binary32 (1 / 10)) where
  std := std32
  u0 := zpow_pos (by norm_num) _
  τ0 := zpow_pos (by norm_num) _
  τ1 := by
    have : (2 : ℝ) ^ (-126 : ℤ) ≤ (2 : ℝ) ^ (-3 : ℤ) := zpow_le_zpow_right₀ (by norm_num) (by norm_num)
    have e : (2 : ℝ) ^ (-3 : ℤ) = 1 / 8 := by norm_num
    rwa [e] at this
  ητ := by
    rw [← zpow_add₀ (by norm_num)]
    exact zpow_le_zpow_right₀ (by norm_num) (by norm_num)
  eps := by
    rw [← toF_zero]
    exact (toF_le rep_zero (rep_of_rep32 ⟨1, -23, by norm_num, by norm_num, by norm_num, by simp [eps32]⟩)).2 (zpow_pos (by norm_num) _).le
  tenth := tenth_good std32 (one_le_zpow₀ (by norm_num) (by norm_num)) (by norm_num) (zpow_le_zpow_right₀ (by norm_num) (by norm_num))
/-- `f64`: the smallest normal number `f64::MIN_POSITIVE` is `2^-1022`. -/
theorem fmt64 : Fmt binary64 ((2 : ℝ) ^ (-53 : ℤ)) ((2 : ℝ) ^ (-1075 : ℤ)) ((2 : ℝ) ^ (1022 : ℤ)) ((2 : ℝ) ^ (-1022 : ℤ)) (toF binary64 eps64) (toF binary64 (1 / 10)) where
  std := std64
  u0 := zpow_pos (by norm_num) _
  τ0 := zpow_pos (by norm_num) _
  τ1 := by
    have : (2 : ℝ) ^ (-1022 : ℤ) ≤ (2 : ℝ) ^ (-3 : ℤ) := zpow_le_zpow_right₀ (by norm_num) (by norm_num)
    have e : (2 : ℝ) ^ (-3 : ℤ) = 1 / 8 := by norm_num
    rwa [e] at this
  ητ := by
    rw [← zpow_add₀ (by norm_num)]
    exact zpow_le_zpow_right₀ (by norm_num) (by norm_num)
  eps := by
    rw [← toF_zero]
    exact (toF_le rep_zero (rep_of_rep64 ⟨1, -52, by norm_num, by norm_num, by norm_num, by simp [eps64]⟩)).2 (zpow_pos (by norm_num) _).le
  tenth := tenth64

/-! ## Items -/

/-- A shape and its placement: the coordinates are numbers of the format, at most `M`; no scaling. -/
structure OkF2 (R : Rounding F) (M : ℝ) (a : Flat2 ℝ × Dec2 ℝ) : Prop where
  shape : a.1.Fits R M
  place : Fits2 R M a.2
structure OkF3 (R : Rounding F) (M : ℝ) (a : Minkowski.Box3 ℝ × Dec3 ℝ) : Prop where
  shape : FitsS R M a.1
  place : Fits3 R M a.2
/-- The points of an item. -/
def at2 (a : Flat2 ℝ × Dec2 ℝ) : V2 ℝ → Prop := Image a.2.tr a.1.prim.Points
def at3 (a : Minkowski.Box3 ℝ × Dec3 ℝ) : V3 ℝ → Prop := Image a.2.tr a.1.prim.Points
variable (R) in
/-- The bound of an item as the format computes it. -/
def boxF2 (a : Flat2 ℝ × Dec2 ℝ) : Aabb2 (Fl R) := worldBoxG (a.1.toFl R) (decF R a.2)
variable (R) in
def boxF3 (a : Minkowski.Box3 ℝ × Dec3 ℝ) : Aabb3 (Fl R) := worldBoxG3 (a.1.toFl R) (decF3 R a.2)
/-- `GJK2::intersect` in the format, with at most `n` iterations. -/
def gjkF2 (eps : Fl R) (n : Nat) (a b : Flat2 ℝ × Dec2 ℝ) : Res (Out (V2 (Fl R))) :=
  gjkRunG2 eps n ((a.1.toFl R).supportG (decF R a.2)) ((b.1.toFl R).supportG (decF R b.2)) (pointG2 (decF R a.2) 0) (pointG2 (decF R b.2) 0)
/-- `GJK3::intersect` in the format, with at most `n` iterations. -/
def gjkF3 (eps tenth : Fl R) (n : Nat) (a b : Minkowski.Box3 ℝ × Dec3 ℝ) : Res (Out (V3 (Fl R))) :=
  gjkRunG3 eps tenth n ((a.1.toFl R).supportG (decF3 R a.2)) ((b.1.toFl R).supportG (decF3 R b.2)) (pointG3 (decF3 R a.2) 0) (pointG3 (decF3 R b.2) 0)
/-- Specification: that run asks for a support point in a direction with all components smaller than `τ`. -/
def AskedTiny2 (τ : ℝ) (eps : Fl R) (n : Nat) (a b : Flat2 ℝ × Dec2 ℝ) : Prop :=
  gjkRunG2 eps n (refusing (Tiny2 R τ) ((a.1.toFl R).supportG (decF R a.2))) ((b.1.toFl R).supportG (decF R b.2)) (pointG2 (decF R a.2) 0) (pointG2 (decF R b.2) 0) = .panic
def AskedTiny3 (τ : ℝ) (eps tenth : Fl R) (n : Nat) (a b : Minkowski.Box3 ℝ × Dec3 ℝ) : Prop :=
  gjkRunG3 eps tenth n (refusing (Tiny3 R τ) ((a.1.toFl R).supportG (decF3 R a.2))) ((b.1.toFl R).supportG (decF3 R b.2)) (pointG3 (decF3 R a.2) 0) (pointG3 (decF3 R b.2) 0) = .panic
/-- Is there a simplex, with the 100 iterations of `GJK::new`? -/
def narrowF2 (eps : Fl R) (a b : Flat2 ℝ × Dec2 ℝ) : Res Bool := do
  let o ← gjkF2 eps 100 a b
  return o.toOption.isSome
def narrowF3 (eps tenth : Fl R) (a b : Minkowski.Box3 ℝ × Dec3 ℝ) : Res Bool := do
  let o ← gjkF3 eps tenth 100 a b
  return o.toOption.isSome

/-- **C115 in a format, 2D.** -/
theorem c115_fmt2 (f : Fmt R u η Ω τ eps tenth) (hM : 1 ≤ M) (hΩ : 2 ^ 23 * M ^ 4 ≤ Ω) {a b : Flat2 ℝ × Dec2 ℝ} (ha : OkF2 R M a) (hb : OkF2 R M b) (n : Nat) :
    ∃ o, gjkF2 eps n a b = .ok o ∧ (o = .miss → NearlySeparated (1536 * (u * M)) (at2 a) (at2 b) ∨ AskedTiny2 τ eps n a b) ∧
      (∀ x, o = .hit x → x.length = 3 ∧ ∀ p ∈ x, NearPoint R (40 * (u * M)) (at2 a) (at2 b) p) :=
  c115_2d f.std hM hΩ f.τ0 (by linarith [f.τ1]) f.ητ f.eps ha.shape hb.shape ha.place hb.place n
/-- **C115 in a format, 3D.** -/
theorem c115_fmt3 (f : Fmt R u η Ω τ eps tenth) (hM : 1 ≤ M) (hΩ : 2 ^ 32 * M ^ 4 ≤ Ω) {a b : Minkowski.Box3 ℝ × Dec3 ℝ} (ha : OkF3 R M a) (hb : OkF3 R M b) (n : Nat) :
    ∃ o, gjkF3 eps tenth n a b = .ok o ∧ (o = .miss → NearlySeparated3 (3072 * (u * M)) (at3 a) (at3 b) ∨ AskedTiny3 τ eps tenth n a b) ∧
      (∀ x, o = .hit x → x.length = 4 ∧ ∀ p ∈ x, NearPoint3 R (55 * (u * M)) (at3 a) (at3 b) p) :=
  c115_3d f.std hM hΩ f.τ0 (by linarith [f.τ1]) f.ητ f.tenth ha.shape hb.shape ha.place hb.place n

theorem omega_pow {k m : ℕ} {e : ℤ} (hM : 1 ≤ M) (hM' : M ≤ 2 ^ m) (h : ((k + m * 4 : ℕ) : ℤ) ≤ e) : 2 ^ k * M ^ 4 ≤ (2 : ℝ) ^ e := by
  have h1 : M ^ 4 ≤ (2 ^ m) ^ 4 := pow_le_pow_left₀ (by linarith) hM' 4
  rw [← pow_mul] at h1
  have h2 : (2 : ℝ) ^ k * M ^ 4 ≤ 2 ^ k * 2 ^ (m * 4) := mul_le_mul_of_nonneg_left h1 (by positivity)
  rw [← pow_add] at h2
  refine h2.trans ?_
  rw [← zpow_natCast]
  exact zpow_le_zpow_right₀ (by norm_num) h

/-- **C115, `f32`, 2D**: two polygons (of at most nine vertices), rectangles, squares, lines or particles, with transforms without scaling; all coordinates are numbers of `f32` of at most `M ≤ 2^25`. GJK in `f32` does
not panic, and when it ends with a miss then in some direction the shapes overlap by at most `1536 * 2^-24 * M`, or it asked for a support point in a direction with all components smaller than
`f32::MIN_POSITIVE = 2^-126`. A hit is three points, each within `40 * 2^-24 * M` of a difference of points of the shapes. -/
theorem c115_f32_2d (hM : 1 ≤ M) (hM' : M ≤ 2 ^ 25) {a b : Flat2 ℝ × Dec2 ℝ} (ha : OkF2 binary32 M a) (hb : OkF2 binary32 M b) (n : Nat) :
    ∃ o, gjkF2 (toF binary32 eps32) n a b = .ok o ∧ (o = .miss → NearlySeparated (1536 * ((2 : ℝ) ^ (-24 : ℤ) * M)) (at2 a) (at2 b) ∨ AskedTiny2 ((2 : ℝ) ^ (-126 : ℤ)) (toF binary32 eps32) n a b) ∧
      (∀ x, o = .hit x → x.length = 3 ∧ ∀ p ∈ x, NearPoint binary32 (40 * ((2 : ℝ) ^ (-24 : ℤ) * M)) (at2 a) (at2 b) p) :=
  c115_fmt2 fmt32 hM (omega_pow hM hM' (by norm_num)) ha hb n
/-- **C115, `f32`, 3D**: two cuboids, cubes, quads, polyhedra without faces or particles; coordinates of at most `M ≤ 2^23`. -/
theorem c115_f32_3d (hM : 1 ≤ M) (hM' : M ≤ 2 ^ 23) {a b : Minkowski.Box3 ℝ × Dec3 ℝ} (ha : OkF3 binary32 M a) (hb : OkF3 binary32 M b) (n : Nat) :
    ∃ o, gjkF3 (toF binary32 eps32) (toF binary32 (1 / 10)) n a b = .ok o ∧
      (o = .miss → NearlySeparated3 (3072 * ((2 : ℝ) ^ (-24 : ℤ) * M)) (at3 a) (at3 b) ∨ AskedTiny3 ((2 : ℝ) ^ (-126 : ℤ)) (toF binary32 eps32) (toF binary32 (1 / 10)) n a b) ∧
      (∀ x, o = .hit x → x.length = 4 ∧ ∀ p ∈ x, NearPoint3 binary32 (55 * ((2 : ℝ) ^ (-24 : ℤ) * M)) (at3 a) (at3 b) p) :=
  c115_fmt3 fmt32 hM (omega_pow hM hM' (by norm_num)) ha hb n
/-- **C115, `f64`, 2D**: all coordinates of `f64` of at most `M ≤ 2^249`; `f64::MIN_POSITIVE = 2^-1022`. -/
theorem c115_f64_2d (hM : 1 ≤ M) (hM' : M ≤ 2 ^ 249) {a b : Flat2 ℝ × Dec2 ℝ} (ha : OkF2 binary64 M a) (hb : OkF2 binary64 M b) (n : Nat) :
    ∃ o, gjkF2 (toF binary64 eps64) n a b = .ok o ∧ (o = .miss → NearlySeparated (1536 * ((2 : ℝ) ^ (-53 : ℤ) * M)) (at2 a) (at2 b) ∨ AskedTiny2 ((2 : ℝ) ^ (-1022 : ℤ)) (toF binary64 eps64) n a b) ∧
      (∀ x, o = .hit x → x.length = 3 ∧ ∀ p ∈ x, NearPoint binary64 (40 * ((2 : ℝ) ^ (-53 : ℤ) * M)) (at2 a) (at2 b) p) :=
  c115_fmt2 fmt64 hM (omega_pow hM hM' (by norm_num)) ha hb n
/-- **C115, `f64`, 3D**: all coordinates of `f64` of at most `M ≤ 2^247`. -/
theorem c115_f64_3d (hM : 1 ≤ M) (hM' : M ≤ 2 ^ 247) {a b : Minkowski.Box3 ℝ × Dec3 ℝ} (ha : OkF3 binary64 M a) (hb : OkF3 binary64 M b) (n : Nat) :
    ∃ o, gjkF3 (toF binary64 eps64) (toF binary64 (1 / 10)) n a b = .ok o ∧
      (o = .miss → NearlySeparated3 (3072 * ((2 : ℝ) ^ (-53 : ℤ) * M)) (at3 a) (at3 b) ∨ AskedTiny3 ((2 : ℝ) ^ (-1022 : ℤ)) (toF binary64 eps64) (toF binary64 (1 / 10)) n a b) ∧
      (∀ x, o = .hit x → x.length = 4 ∧ ∀ p ∈ x, NearPoint3 binary64 (55 * ((2 : ℝ) ^ (-53 : ℤ) * M)) (at3 a) (at3 b) p) :=
  c115_fmt3 fmt64 hM (omega_pow hM hM' (by norm_num)) ha hb n

/-! ## The pipeline, for any kind of items -/

/-- What a pipeline finds in a scene: no pair twice; each pair has bounds that meet; all pairs that must be found, but those lost. -/
def FoundBy {I : Type} (Meet Must Lost : I → I → Prop) (scene : List I) (found : List (Nat × Nat)) : Prop :=
  found.Nodup ∧ (∀ i j, (i, j) ∈ found → i < j ∧ ∃ a b, scene[i]? = some a ∧ scene[j]? = some b ∧ Meet a b) ∧
    ∀ i j a b, i < j → scene[i]? = some a → scene[j]? = some b → Must a b → (i, j) ∈ found ∨ Lost a b

/-- A narrow phase on the pairs of a broad phase. -/
theorem confirm_found {I B : Type} {box : I → B} {test : B → B → Bool} {narrow : I → I → Res Bool} {Meet Must Touch Lost : I → I → Prop} {scene : List I} {pairs : List (Nat × Nat)} (hmt : ∀ a b, Must a b → Touch a b)
    (hn : ∀ a ∈ scene, ∀ b ∈ scene, ∃ r, narrow a b = .ok r ∧ (Must a b → r = true ∨ Lost a b)) (h1 : ∀ a ∈ scene, ∀ b ∈ scene, Touch a b → test (box a) (box b) = true)
    (h2 : ∀ a ∈ scene, ∀ b ∈ scene, test (box a) (box b) = true → Meet a b) (nd : pairs.Nodup) (hp : ∀ i j, (i, j) ∈ pairs ↔ i < j ∧ Hit box test scene i j) :
    ∃ found, confirm narrow scene pairs = .ok found ∧ found.Sublist pairs ∧ FoundBy Meet Touch (fun _ _ => False) scene pairs ∧ FoundBy Meet Must Lost scene found := by
  have mem : ∀ {i : Nat} {a}, scene[i]? = some a → a ∈ scene := fun h => List.mem_of_getElem? h
  let q : Nat × Nat → Bool := fun p => match scene[p.1]?, scene[p.2]? with
    | some a, some b => decide (narrow a b = .ok true)
    | _, _ => false
  have hq : ∀ p ∈ pairs, (do
      let a ← Res.ofOption scene[p.1]?
      let b ← Res.ofOption scene[p.2]?
      narrow a b) = Res.ok (q p) := by
    rintro ⟨i, j⟩ hij
    obtain ⟨-, ⟨a, b, ha, hb, -⟩⟩ := (hp i j).1 hij
    obtain ⟨r, e, -⟩ := hn a (mem ha) b (mem hb)
    dsimp only [q]
    rw [ha, hb]
    show narrow a b = Res.ok (decide (narrow a b = .ok true))
    rw [e]
    cases r with
    | true => rw [decide_eq_true rfl]
    | false => rw [decide_eq_false (by intro h; cases h)]
  refine ⟨pairs.filter q, retainRes_ok _ q pairs hq, List.filter_sublist, ⟨nd, ?_, ?_⟩, nd.filter _, ?_, ?_⟩
  · intro i j h
    obtain ⟨k1, a, b, ha, hb, k2⟩ := (hp i j).1 h
    exact ⟨k1, a, b, ha, hb, h2 a (mem ha) b (mem hb) k2⟩
  · intro i j a b hij ha hb hm
    exact Or.inl ((hp i j).2 ⟨hij, a, b, ha, hb, h1 a (mem ha) b (mem hb) hm⟩)
  · intro i j h
    obtain ⟨k1, a, b, ha, hb, k2⟩ := (hp i j).1 (List.mem_filter.1 h).1
    exact ⟨k1, a, b, ha, hb, h2 a (mem ha) b (mem hb) k2⟩
  · intro i j a b hij ha hb hm
    obtain ⟨r, e, hr⟩ := hn a (mem ha) b (mem hb)
    rcases hr hm with rfl | hr
    · refine Or.inl (List.mem_filter.2 ⟨(hp i j).2 ⟨hij, a, b, ha, hb, h1 a (mem ha) b (mem hb) (hmt a b hm)⟩, ?_⟩)
      dsimp only [q]
      rw [ha, hb]
      exact decide_eq_true e
    · exact Or.inr hr

/-! ## In a format -/

theorem prim_okF {s : Flat2 ℝ} (hs : s.Fits R M) : s.prim.Ok := by
  cases s with
  | particle => trivial
  | line l => trivial
  | rectangle w k => exact ⟨w, k, hs.1.1, hs.1.2, rfl⟩
  | square w => exact ⟨w, hs.1, rfl⟩
  | polygon vs => exact ⟨hs.1, hs.2.1⟩

theorem Fmt.under (f : Fmt R u η Ω τ eps tenth) (hM : 1 ≤ M) : 7 * η ≤ u * M := by
  have h1 := f.u0
  have h2 : u * τ ≤ u * (1 / 8) := mul_le_mul_of_nonneg_left f.τ1 h1.le
  have h3 : u * 1 ≤ u * M := mul_le_mul_of_nonneg_left hM h1.le
  linarith [f.ητ]

/-- **C116, the bound in a format, 2D**: every coordinate is within `10 u M` of the exact bound; so every point of the item is in the bound enlarged by that much. -/
theorem c116_box2 (f : Fmt R u η Ω τ eps tenth) (hM : 1 ≤ M) (hΩ : 4 * M ≤ Ω) {a : Flat2 ℝ × Dec2 ℝ} (ha : OkF2 R M a) :
    ∃ B : Aabb2 ℝ, boxF2 R a = boxR R B ∧ RpBox R (5 * M) B ∧ BoxNear (10 * (u * M)) B (worldBox2 (a.1.prim, a.2)) ∧
      ∀ p, at2 a p → (B.min.x - 10 * (u * M) ≤ p.x ∧ p.x ≤ B.max.x + 10 * (u * M)) ∧ (B.min.y - 10 * (u * M) ≤ p.y ∧ p.y ≤ B.max.y + 10 * (u * M)) := by
  obtain ⟨B, h1, h2, h3⟩ := c108_box f.std hM hΩ ha.shape ha.place
  have hη := f.under hM
  have hη0 := f.std.η0
  have h4 : BoxNear (10 * (u * M)) B (worldBox2 (a.1.prim, a.2)) := ⟨h3.1.mono (by linarith), h3.2.mono (by linarith)⟩
  refine ⟨B, h1, h2, h4, fun p hp => ?_⟩
  obtain ⟨⟨m1, m2⟩, m3, m4⟩ := worldBox2_mem (a := (a.1.prim, a.2)) (prim_okF ha.shape) hp
  obtain ⟨⟨n1, n2⟩, n3, n4⟩ := h4
  simp only [V2.sub_x, V2.sub_y, abs_le] at n1 n2 n3 n4
  exact ⟨⟨by linarith, by linarith⟩, by linarith, by linarith⟩
/-- **C116, the bound in a format, 3D**. -/
theorem c116_box3 (f : Fmt R u η Ω τ eps tenth) (hM : 1 ≤ M) (hΩ : 5 * M ≤ Ω) {a : Minkowski.Box3 ℝ × Dec3 ℝ} (ha : OkF3 R M a) :
    ∃ B : Aabb3 ℝ, boxF3 R a = solidR R B ∧ RpSolid R (6 * M) B ∧ SolidNear (15 * (u * M)) B (worldBox3 (a.1.prim, a.2)) ∧
      ∀ p, at3 a p → (B.min.x - 15 * (u * M) ≤ p.x ∧ p.x ≤ B.max.x + 15 * (u * M)) ∧ (B.min.y - 15 * (u * M) ≤ p.y ∧ p.y ≤ B.max.y + 15 * (u * M)) ∧
        (B.min.z - 15 * (u * M) ≤ p.z ∧ p.z ≤ B.max.z + 15 * (u * M)) := by
  obtain ⟨B, h1, h2, h3⟩ := c113_box f.std hM hΩ ha.shape ha.place
  have hη := f.under hM
  have hη0 := f.std.η0
  have h4 : SolidNear (15 * (u * M)) B (worldBox3 (a.1.prim, a.2)) := ⟨h3.1.mono (by linarith), h3.2.mono (by linarith)⟩
  refine ⟨B, h1, h2, h4, fun p hp => ?_⟩
  obtain ⟨⟨m1, m2⟩, ⟨m3, m4⟩, m5, m6⟩ := worldBox3_mem (a := (a.1.prim, a.2)) (prim3_ok ha.shape) hp
  obtain ⟨⟨n1, n2, n3⟩, n4, n5, n6⟩ := h4
  simp only [V3.sub_x, V3.sub_y, V3.sub_z, abs_le] at n1 n2 n3 n4 n5 n6
  exact ⟨⟨by linarith, by linarith⟩, ⟨by linarith, by linarith⟩, by linarith, by linarith⟩

/-- **C116, pairs of bounds in a format**: the bounds of items that overlap by more than rounding intersect; bounds that intersect belong to items with exact bounds that meet up to rounding. -/
theorem c116_test2 (f : Fmt R u η Ω τ eps tenth) (hM : 1 ≤ M) (hΩ : 4 * M ≤ Ω) {a b : Flat2 ℝ × Dec2 ℝ} (ha : OkF2 R M a) (hb : OkF2 R M b) :
    (∀ r, 20 * (u * M) < r → Deep2 (at2 a) (at2 b) r → (boxF2 R a).intersects (boxF2 R b) = true) ∧ ((boxF2 R a).intersects (boxF2 R b) = true → BoundsMeet (20 * (u * M)) a b) := by
  obtain ⟨A, a1, a2, a3, a4⟩ := c116_box2 f hM hΩ ha
  obtain ⟨B, b1, b2, b3, b4⟩ := c116_box2 f hM hΩ hb
  have s0 : 0 ≤ u * M := mul_nonneg f.u0.le (by linarith)
  rw [a1, b1, boxR_intersects a2 b2]
  constructor
  · intro r hr hd
    obtain ⟨e1, e2, e3, e4⟩ := axis_norm (r := r) (by linarith)
    simp only [Aabb2.intersects, Bool.and_eq_true, decide_eq_true_eq]
    refine ⟨⟨⟨?_, ?_⟩, ?_⟩, ?_⟩
    · obtain ⟨x, y, hx, hy, e⟩ := hd _ e1
      have := congrArg V2.x e
      simp only [V2.sub_x] at this
      linarith [(a4 x hx).1.2, (b4 y hy).1.1]
    · obtain ⟨x, y, hx, hy, e⟩ := hd _ e2
      have := congrArg V2.x e
      simp only [V2.sub_x] at this
      linarith [(a4 x hx).1.1, (b4 y hy).1.2]
    · obtain ⟨x, y, hx, hy, e⟩ := hd _ e3
      have := congrArg V2.y e
      simp only [V2.sub_y] at this
      linarith [(a4 x hx).2.2, (b4 y hy).2.1]
    · obtain ⟨x, y, hx, hy, e⟩ := hd _ e4
      have := congrArg V2.y e
      simp only [V2.sub_y] at this
      linarith [(a4 x hx).2.1, (b4 y hy).2.2]
  · intro h
    simp only [Aabb2.intersects, Bool.and_eq_true, decide_eq_true_eq] at h
    obtain ⟨⟨⟨h1, h2⟩, h3⟩, h4⟩ := h
    obtain ⟨⟨n1, n2⟩, n3, n4⟩ := a3
    obtain ⟨⟨m1, m2⟩, m3, m4⟩ := b3
    simp only [V2.sub_x, V2.sub_y, abs_le] at n1 n2 n3 n4 m1 m2 m3 m4
    exact ⟨by linarith, by linarith, by linarith, by linarith⟩

theorem c116_test3 (f : Fmt R u η Ω τ eps tenth) (hM : 1 ≤ M) (hΩ : 5 * M ≤ Ω) {a b : Minkowski.Box3 ℝ × Dec3 ℝ} (ha : OkF3 R M a) (hb : OkF3 R M b) :
    (∀ r, 30 * (u * M) < r → Deep3 (at3 a) (at3 b) r → (boxF3 R a).intersects (boxF3 R b) = true) ∧ ((boxF3 R a).intersects (boxF3 R b) = true → BoundsMeet3 (30 * (u * M)) a b) := by
  obtain ⟨A, a1, a2, a3, a4⟩ := c116_box3 f hM hΩ ha
  obtain ⟨B, b1, b2, b3, b4⟩ := c116_box3 f hM hΩ hb
  have s0 : 0 ≤ u * M := mul_nonneg f.u0.le (by linarith)
  rw [a1, b1, solidR_intersects a2 b2]
  constructor
  · intro r hr hd
    obtain ⟨⟨e1, e2⟩, ⟨e3, e4⟩, e5, e6⟩ := axis_norm3 (r := r) (by linarith)
    simp only [Aabb3.intersects, Bool.and_eq_true, decide_eq_true_eq]
    refine ⟨⟨⟨⟨⟨?_, ?_⟩, ?_⟩, ?_⟩, ?_⟩, ?_⟩
    · obtain ⟨x, y, hx, hy, e⟩ := hd _ e1
      have := congrArg V3.x e
      simp only [V3.sub_x] at this
      linarith [(a4 x hx).1.2, (b4 y hy).1.1]
    · obtain ⟨x, y, hx, hy, e⟩ := hd _ e2
      have := congrArg V3.x e
      simp only [V3.sub_x] at this
      linarith [(a4 x hx).1.1, (b4 y hy).1.2]
    · obtain ⟨x, y, hx, hy, e⟩ := hd _ e3
      have := congrArg V3.y e
      simp only [V3.sub_y] at this
      linarith [(a4 x hx).2.1.2, (b4 y hy).2.1.1]
    · obtain ⟨x, y, hx, hy, e⟩ := hd _ e4
      have := congrArg V3.y e
      simp only [V3.sub_y] at this
      linarith [(a4 x hx).2.1.1, (b4 y hy).2.1.2]
    · obtain ⟨x, y, hx, hy, e⟩ := hd _ e5
      have := congrArg V3.z e
      simp only [V3.sub_z] at this
      linarith [(a4 x hx).2.2.2, (b4 y hy).2.2.1]
    · obtain ⟨x, y, hx, hy, e⟩ := hd _ e6
      have := congrArg V3.z e
      simp only [V3.sub_z] at this
      linarith [(a4 x hx).2.2.1, (b4 y hy).2.2.2]
  · intro h
    simp only [Aabb3.intersects, Bool.and_eq_true, decide_eq_true_eq] at h
    obtain ⟨⟨⟨⟨⟨h1, h2⟩, h3⟩, h4⟩, h5⟩, h6⟩ := h
    obtain ⟨⟨n1, n2, n3⟩, n4, n5, n6⟩ := a3
    obtain ⟨⟨m1, m2, m3⟩, m4, m5, m6⟩ := b3
    simp only [V3.sub_x, V3.sub_y, V3.sub_z, abs_le] at n1 n2 n3 n4 n5 n6 m1 m2 m3 m4 m5 m6
    exact ⟨⟨by linarith, by linarith⟩, ⟨by linarith, by linarith⟩, by linarith, by linarith⟩


/-- Overlap by more than `δ` in every direction. -/
def Over2 (δ : ℝ) (a b : Flat2 ℝ × Dec2 ℝ) : Prop := ∃ r, δ < r ∧ Deep2 (at2 a) (at2 b) r
def Over3 (δ : ℝ) (a b : Minkowski.Box3 ℝ × Dec3 ℝ) : Prop := ∃ r, δ < r ∧ Deep3 (at3 a) (at3 b) r
/-- GJK used all its iterations, or asked for a direction with all components smaller than `τ`. -/
def Lost2 (τ : ℝ) (eps : Fl R) (a b : Flat2 ℝ × Dec2 ℝ) : Prop := gjkF2 eps 100 a b = .ok .exhausted ∨ AskedTiny2 τ eps 100 a b
def Lost3 (τ : ℝ) (eps tenth : Fl R) (a b : Minkowski.Box3 ℝ × Dec3 ℝ) : Prop := gjkF3 eps tenth 100 a b = .ok .exhausted ∨ AskedTiny3 τ eps tenth 100 a b
/-- What the broad phase hands on (`pairs`) and the narrow phase keeps (`found`). -/
def Good2 (u M τ : ℝ) (eps : Fl R) (scene : List (Flat2 ℝ × Dec2 ℝ)) (pairs found : List (Nat × Nat)) : Prop :=
  FoundBy (BoundsMeet (20 * (u * M))) (Over2 (20 * (u * M))) (fun _ _ => False) scene pairs ∧ found.Sublist pairs ∧
    FoundBy (BoundsMeet (20 * (u * M))) (Over2 (1536 * (u * M))) (Lost2 τ eps) scene found
def Good3 (u M τ : ℝ) (eps tenth : Fl R) (scene : List (Minkowski.Box3 ℝ × Dec3 ℝ)) (pairs found : List (Nat × Nat)) : Prop :=
  FoundBy (BoundsMeet3 (30 * (u * M))) (Over3 (30 * (u * M))) (fun _ _ => False) scene pairs ∧ found.Sublist pairs ∧
    FoundBy (BoundsMeet3 (30 * (u * M))) (Over3 (3072 * (u * M))) (Lost3 τ eps tenth) scene found

theorem m_le_pow (hM : 1 ≤ M) : M ≤ M ^ 4 := le_self_pow₀ hM (by norm_num)

theorem good2 (f : Fmt R u η Ω τ eps tenth) (hM : 1 ≤ M) (hΩ : 2 ^ 23 * M ^ 4 ≤ Ω) {scene : List (Flat2 ℝ × Dec2 ℝ)} (hok : ∀ a ∈ scene, OkF2 R M a) {pairs : List (Nat × Nat)} (nd : pairs.Nodup)
    (hp : ∀ i j, (i, j) ∈ pairs ↔ i < j ∧ Hit (boxF2 R) Aabb2.intersects scene i j) : ∃ found, confirm (narrowF2 eps) scene pairs = .ok found ∧ Good2 u M τ eps scene pairs found := by
  have s0 : 0 ≤ u * M := mul_nonneg f.u0.le (by linarith)
  have h4 : 4 * M ≤ Ω := by linarith [m_le_pow hM]
  obtain ⟨found, h1, h2, h3, h5⟩ := confirm_found (narrow := narrowF2 eps) (Meet := BoundsMeet (20 * (u * M))) (Must := Over2 (1536 * (u * M))) (Touch := Over2 (20 * (u * M))) (Lost := Lost2 τ eps)
    (by rintro a b ⟨r, hr, hd⟩; exact ⟨r, by linarith, hd⟩) (by
      intro a ha b hb
      obtain ⟨o, ho, hmiss, -⟩ := c115_fmt2 f hM hΩ (hok a ha) (hok b hb) 100
      refine ⟨o.toOption.isSome, by unfold narrowF2; rw [ho, Res.bind_ok]; rfl, ?_⟩
      rintro ⟨r, hr, hd⟩
      cases o with
      | miss => exact Or.inr (Or.inr ((hmiss rfl).resolve_left (deep_not_nearly hr (mul_nonneg (by norm_num) s0) hd)))
      | exhausted => exact Or.inr (Or.inl ho)
      | hit x => exact Or.inl rfl)
    (by rintro a ha b hb ⟨r, hr, hd⟩; exact (c116_test2 f hM h4 (hok a ha) (hok b hb)).1 r hr hd) (fun a ha b hb => (c116_test2 f hM h4 (hok a ha) (hok b hb)).2) nd hp
  exact ⟨found, h1, h3, h2, h5⟩
theorem good3 (f : Fmt R u η Ω τ eps tenth) (hM : 1 ≤ M) (hΩ : 2 ^ 32 * M ^ 4 ≤ Ω) {scene : List (Minkowski.Box3 ℝ × Dec3 ℝ)} (hok : ∀ a ∈ scene, OkF3 R M a) {pairs : List (Nat × Nat)} (nd : pairs.Nodup)
    (hp : ∀ i j, (i, j) ∈ pairs ↔ i < j ∧ Hit (boxF3 R) Aabb3.intersects scene i j) : ∃ found, confirm (narrowF3 eps tenth) scene pairs = .ok found ∧ Good3 u M τ eps tenth scene pairs found := by
  have s0 : 0 ≤ u * M := mul_nonneg f.u0.le (by linarith)
  have h4 : 5 * M ≤ Ω := by linarith [m_le_pow hM]
  obtain ⟨found, h1, h2, h3, h5⟩ := confirm_found (narrow := narrowF3 eps tenth) (Meet := BoundsMeet3 (30 * (u * M))) (Must := Over3 (3072 * (u * M))) (Touch := Over3 (30 * (u * M))) (Lost := Lost3 τ eps tenth)
    (by rintro a b ⟨r, hr, hd⟩; exact ⟨r, by linarith, hd⟩) (by
      intro a ha b hb
      obtain ⟨o, ho, hmiss, -⟩ := c115_fmt3 f hM hΩ (hok a ha) (hok b hb) 100
      refine ⟨o.toOption.isSome, by unfold narrowF3; rw [ho, Res.bind_ok]; rfl, ?_⟩
      rintro ⟨r, hr, hd⟩
      cases o with
      | miss => exact Or.inr (Or.inr ((hmiss rfl).resolve_left (deep3_not_nearly hr (mul_nonneg (by norm_num) s0) hd)))
      | exhausted => exact Or.inr (Or.inl ho)
      | hit x => exact Or.inl rfl)
    (by rintro a ha b hb ⟨r, hr, hd⟩; exact (c116_test3 f hM h4 (hok a ha) (hok b hb)).1 r hr hd) (fun a ha b hb => (c116_test3 f hM h4 (hok a ha) (hok b hb)).2) nd hp
  exact ⟨found, h1, h3, h2, h5⟩

/-- **C116 with brute force, 2D.** -/
theorem c116_brute2 (f : Fmt R u η Ω τ eps tenth) (hM : 1 ≤ M) (hΩ : 2 ^ 23 * M ^ 4 ≤ Ω) (scene : List (Flat2 ℝ × Dec2 ℝ)) (hok : ∀ a ∈ scene, OkF2 R M a) :
    ∃ pairs found, bruteForce (boxF2 R) Aabb2.intersects scene = .ok pairs ∧ confirm (narrowF2 eps) scene pairs = .ok found ∧ Good2 u M τ eps scene pairs found := by
  obtain ⟨l, h1, h2, h3⟩ := c19_brute_force (boxF2 R) Aabb2.intersects scene
  obtain ⟨found, k1, k2⟩ := good2 f hM hΩ hok h2.nodup h3
  exact ⟨l, found, h1, k1, k2⟩
/-- **C116 with sweep and prune, 2D**, any axis and any variance (its numbers may be NaN): the positions are those in the list as the algorithm leaves it. -/
theorem c116_sweep2 {σ : Type} (f : Fmt R u η Ω τ eps tenth) (hM : 1 ≤ M) (hΩ : 2 ^ 23 * M ^ 4 ≤ Ω) (v : VarOps σ (Aabb2 (Fl R))) (s : Sap σ) (hax : s.sweep_axis < 2) (scene : List (Flat2 ℝ × Dec2 ℝ))
    (hok : ∀ a ∈ scene, OkF2 R M a) :
    ∃ pairs scene' s' found, s.findColliderPairs sapAabb2 v (boxF2 R) scene = .ok (pairs, scene', s') ∧ scene'.Perm scene ∧ confirm (narrowF2 eps) scene' pairs = .ok found ∧
      Good2 u M τ eps scene' pairs found := by
  obtain ⟨l, scene', s', h1, h2, h3, h4⟩ := c20_boxes2 v (boxF2 R) s scene hax
  obtain ⟨found, k1, k2⟩ := good2 f hM hΩ (fun a ha => hok a (h2.mem_iff.1 ha)) h3 h4
  exact ⟨l, scene', s', found, h1, h2, k1, k2⟩
/-- **C116 with a tree built from the scene, 2D** (at most 256 items, every item dirty; the margin is added with rounding; surface areas may be NaN): the list found is that of brute force. -/
theorem c116_tree2 {S : Type} (f : Fmt R u η Ω τ eps tenth) (hM : 1 ≤ M) (hΩ : 2 ^ 23 * M ^ 4 ≤ Ω) (margin : V2 F) (hx : R.zero ≤ margin.x) (hy : R.zero ≤ margin.y) (area : Aabb2 F → S)
    (lt : S → S → Bool) (sub div : S → S → S) (im : S) (scene : List (Flat2 ℝ × Dec2 ℝ)) (hok : ∀ a ∈ scene, OkF2 R M a) (hlen : scene.length ≤ 256) (rng : Nat → Nat) :
    ∃ h s pairs found, Exec (roundOps2 (V := Flat2 ℝ × Dec2 ℝ) (K := F) (boxF2 R) (fun a => addMarginF2 R (boxF2 R a) margin) area lt sub div im) h s ∧ s.values.map Prod.snd = scene ∧
      dbvtPairs (roundOps2 (V := Flat2 ℝ × Dec2 ℝ) (K := F) (boxF2 R) (fun a => addMarginF2 R (boxF2 R a) margin) area lt sub div im) Aabb2.intersects s (List.replicate scene.length true) = .ok pairs ∧
      bruteForce (boxF2 R) Aabb2.intersects scene = .ok pairs ∧ confirm (narrowF2 eps) scene pairs = .ok found ∧ Good2 u M τ eps scene pairs found := by
  obtain ⟨h, s, he, hd, hu, hr, hv⟩ := build_tree (roundOps2 (V := Flat2 ℝ × Dec2 ℝ) (K := F) (boxF2 R) (fun a => addMarginF2 R (boxF2 R a) margin) area lt sub div im) scene rng
  have hl : s.values.length = scene.length := by rw [← hv, List.length_map]
  obtain ⟨n, hh, -, -, hn, -⟩ := c04_height _ he hr
  obtain ⟨pairs, found, b1, b2, b3⟩ := c116_brute2 f hM hΩ scene hok
  rcases (c81_pairs2 _ _ area lt sub div im (fun v => (c99_margin2 R (boxF2 R v) margin hx hy).2) he hd hu hr hh).2 with ⟨l, h1, h2⟩ | ⟨h1, -⟩
  · refine ⟨h, s, pairs, found, he, hv, ?_, b1, b2, b3⟩
    rw [hl] at h1
    rw [h1]
    have : bruteForce (fun e : Nat × (Flat2 ℝ × Dec2 ℝ) => boxF2 R e.2) Aabb2.intersects s.values = bruteForce (boxF2 R) Aabb2.intersects (s.values.map Prod.snd) := by
      unfold bruteForce
      simp only [List.length_map, List.getElem?_map, ofOption_map, mapOk_bind]
    have h2' : bruteForce (fun e : Nat × (Flat2 ℝ × Dec2 ℝ) => boxF2 R e.2) Aabb2.intersects s.values = .ok l := h2
    rw [this, hv, b1] at h2'
    cases h2'
    rfl
  · omega

/-- **C116 with brute force, 3D.** -/
theorem c116_brute3 (f : Fmt R u η Ω τ eps tenth) (hM : 1 ≤ M) (hΩ : 2 ^ 32 * M ^ 4 ≤ Ω) (scene : List (Minkowski.Box3 ℝ × Dec3 ℝ)) (hok : ∀ a ∈ scene, OkF3 R M a) :
    ∃ pairs found, bruteForce (boxF3 R) Aabb3.intersects scene = .ok pairs ∧ confirm (narrowF3 eps tenth) scene pairs = .ok found ∧ Good3 u M τ eps tenth scene pairs found := by
  obtain ⟨l, h1, h2, h3⟩ := c19_brute_force (boxF3 R) Aabb3.intersects scene
  obtain ⟨found, k1, k2⟩ := good3 f hM hΩ hok h2.nodup h3
  exact ⟨l, found, h1, k1, k2⟩
/-- **C116 with sweep and prune, 3D**, any axis and any variance (its numbers may be NaN): the positions are those in the list as the algorithm leaves it. -/
theorem c116_sweep3 {σ : Type} (f : Fmt R u η Ω τ eps tenth) (hM : 1 ≤ M) (hΩ : 2 ^ 32 * M ^ 4 ≤ Ω) (v : VarOps σ (Aabb3 (Fl R))) (s : Sap σ) (hax : s.sweep_axis < 3) (scene : List (Minkowski.Box3 ℝ × Dec3 ℝ))
    (hok : ∀ a ∈ scene, OkF3 R M a) :
    ∃ pairs scene' s' found, s.findColliderPairs sapAabb3 v (boxF3 R) scene = .ok (pairs, scene', s') ∧ scene'.Perm scene ∧ confirm (narrowF3 eps tenth) scene' pairs = .ok found ∧
      Good3 u M τ eps tenth scene' pairs found := by
  obtain ⟨l, scene', s', h1, h2, h3, h4⟩ := c20_boxes3 v (boxF3 R) s scene hax
  obtain ⟨found, k1, k2⟩ := good3 f hM hΩ (fun a ha => hok a (h2.mem_iff.1 ha)) h3 h4
  exact ⟨l, scene', s', found, h1, h2, k1, k2⟩
/-- **C116 with a tree built from the scene, 3D** (at most 256 items, every item dirty; the margin is added with rounding; surface areas may be NaN): the list found is that of brute force. -/
theorem c116_tree3 {S : Type} (f : Fmt R u η Ω τ eps tenth) (hM : 1 ≤ M) (hΩ : 2 ^ 32 * M ^ 4 ≤ Ω) (margin : V3 F) (hx : R.zero ≤ margin.x) (hy : R.zero ≤ margin.y) (hz : R.zero ≤ margin.z) (area : Aabb3 F → S)
    (lt : S → S → Bool) (sub div : S → S → S) (im : S) (scene : List (Minkowski.Box3 ℝ × Dec3 ℝ)) (hok : ∀ a ∈ scene, OkF3 R M a) (hlen : scene.length ≤ 256) (rng : Nat → Nat) :
    ∃ h s pairs found, Exec (roundOps3 (V := Minkowski.Box3 ℝ × Dec3 ℝ) (K := F) (boxF3 R) (fun a => addMarginF3 R (boxF3 R a) margin) area lt sub div im) h s ∧ s.values.map Prod.snd = scene ∧
      dbvtPairs (roundOps3 (V := Minkowski.Box3 ℝ × Dec3 ℝ) (K := F) (boxF3 R) (fun a => addMarginF3 R (boxF3 R a) margin) area lt sub div im) Aabb3.intersects s (List.replicate scene.length true) = .ok pairs ∧
      bruteForce (boxF3 R) Aabb3.intersects scene = .ok pairs ∧ confirm (narrowF3 eps tenth) scene pairs = .ok found ∧ Good3 u M τ eps tenth scene pairs found := by
  obtain ⟨h, s, he, hd, hu, hr, hv⟩ := build_tree (roundOps3 (V := Minkowski.Box3 ℝ × Dec3 ℝ) (K := F) (boxF3 R) (fun a => addMarginF3 R (boxF3 R a) margin) area lt sub div im) scene rng
  have hl : s.values.length = scene.length := by rw [← hv, List.length_map]
  obtain ⟨n, hh, -, -, hn, -⟩ := c04_height _ he hr
  obtain ⟨pairs, found, b1, b2, b3⟩ := c116_brute3 f hM hΩ scene hok
  rcases (c81_pairs3 _ _ area lt sub div im (fun v => (c99_margin3 R (boxF3 R v) margin hx hy hz).2) he hd hu hr hh).2 with ⟨l, h1, h2⟩ | ⟨h1, -⟩
  · refine ⟨h, s, pairs, found, he, hv, ?_, b1, b2, b3⟩
    rw [hl] at h1
    rw [h1]
    have : bruteForce (fun e : Nat × (Minkowski.Box3 ℝ × Dec3 ℝ) => boxF3 R e.2) Aabb3.intersects s.values = bruteForce (boxF3 R) Aabb3.intersects (s.values.map Prod.snd) := by
      unfold bruteForce
      simp only [List.length_map, List.getElem?_map, ofOption_map, mapOk_bind]
    have h2' : bruteForce (fun e : Nat × (Minkowski.Box3 ℝ × Dec3 ℝ) => boxF3 R e.2) Aabb3.intersects s.values = .ok l := h2
    rw [this, hv, b1] at h2'
    cases h2'
    rfl
  · omega

/-! ## `f32` -/

/-- **C116 in `f32` with brute force, 2D**: coordinates of at most `M ≤ 2^25`. -/
theorem c116_f32_brute2 (hM : 1 ≤ M) (hM' : M ≤ 2 ^ 25) (scene : List (Flat2 ℝ × Dec2 ℝ)) (hok : ∀ a ∈ scene, OkF2 binary32 M a) :
    ∃ pairs found, bruteForce (boxF2 binary32) Aabb2.intersects scene = .ok pairs ∧ confirm (narrowF2 (toF binary32 eps32)) scene pairs = .ok found ∧ Good2 ((2 : ℝ) ^ (-24 : ℤ)) M ((2 : ℝ) ^ (-126 : ℤ)) (toF binary32 eps32) scene pairs found :=
  c116_brute2 fmt32 hM (omega_pow hM hM' (by norm_num)) scene hok
/-- **C116 in `f32` with sweep and prune, 2D.** -/
theorem c116_f32_sweep2 {σ : Type} (hM : 1 ≤ M) (hM' : M ≤ 2 ^ 25) (v : VarOps σ (Aabb2 (Fl binary32))) (s : Sap σ) (hax : s.sweep_axis < 2) (scene : List (Flat2 ℝ × Dec2 ℝ)) (hok : ∀ a ∈ scene, OkF2 binary32 M a) :
    ∃ pairs scene' s' found, s.findColliderPairs sapAabb2 v (boxF2 binary32) scene = .ok (pairs, scene', s') ∧ scene'.Perm scene ∧ confirm (narrowF2 (toF binary32 eps32)) scene' pairs = .ok found ∧
      Good2 ((2 : ℝ) ^ (-24 : ℤ)) M ((2 : ℝ) ^ (-126 : ℤ)) (toF binary32 eps32) scene' pairs found :=
  c116_sweep2 fmt32 hM (omega_pow hM hM' (by norm_num)) v s hax scene hok
/-- **C116 in `f32` with a tree, 2D.** -/
theorem c116_f32_tree2 {S : Type} (hM : 1 ≤ M) (hM' : M ≤ 2 ^ 25) (margin : V2 F32) (hx : binary32.zero ≤ margin.x) (hy : binary32.zero ≤ margin.y) (area : Aabb2 F32 → S) (lt : S → S → Bool) (sub div : S → S → S) (im : S) (scene : List (Flat2 ℝ × Dec2 ℝ))
    (hok : ∀ a ∈ scene, OkF2 binary32 M a) (hlen : scene.length ≤ 256) (rng : Nat → Nat) :
    ∃ h s pairs found, Exec (roundOps2 (V := Flat2 ℝ × Dec2 ℝ) (K := F32) (boxF2 binary32) (fun a => addMarginF2 binary32 (boxF2 binary32 a) margin) area lt sub div im) h s ∧ s.values.map Prod.snd = scene ∧
      dbvtPairs (roundOps2 (V := Flat2 ℝ × Dec2 ℝ) (K := F32) (boxF2 binary32) (fun a => addMarginF2 binary32 (boxF2 binary32 a) margin) area lt sub div im) Aabb2.intersects s (List.replicate scene.length true) = .ok pairs ∧
      bruteForce (boxF2 binary32) Aabb2.intersects scene = .ok pairs ∧ confirm (narrowF2 (toF binary32 eps32)) scene pairs = .ok found ∧ Good2 ((2 : ℝ) ^ (-24 : ℤ)) M ((2 : ℝ) ^ (-126 : ℤ)) (toF binary32 eps32) scene pairs found :=
  c116_tree2 fmt32 hM (omega_pow hM hM' (by norm_num)) margin hx hy area lt sub div im scene hok hlen rng

/-- **C116 in `f32` with brute force, 3D**: coordinates of at most `M ≤ 2^23`. -/
theorem c116_f32_brute3 (hM : 1 ≤ M) (hM' : M ≤ 2 ^ 23) (scene : List (Minkowski.Box3 ℝ × Dec3 ℝ)) (hok : ∀ a ∈ scene, OkF3 binary32 M a) :
    ∃ pairs found, bruteForce (boxF3 binary32) Aabb3.intersects scene = .ok pairs ∧ confirm (narrowF3 (toF binary32 eps32) (toF binary32 (1 / 10))) scene pairs = .ok found ∧ Good3 ((2 : ℝ) ^ (-24 : ℤ)) M ((2 : ℝ) ^ (-126 : ℤ)) (toF binary32 eps32) (toF binary32 (1 / 10)) scene pairs found :=
  c116_brute3 fmt32 hM (omega_pow hM hM' (by norm_num)) scene hok
/-- **C116 in `f32` with sweep and prune, 3D.** -/
theorem c116_f32_sweep3 {σ : Type} (hM : 1 ≤ M) (hM' : M ≤ 2 ^ 23) (v : VarOps σ (Aabb3 (Fl binary32))) (s : Sap σ) (hax : s.sweep_axis < 3) (scene : List (Minkowski.Box3 ℝ × Dec3 ℝ)) (hok : ∀ a ∈ scene, OkF3 binary32 M a) :
    ∃ pairs scene' s' found, s.findColliderPairs sapAabb3 v (boxF3 binary32) scene = .ok (pairs, scene', s') ∧ scene'.Perm scene ∧ confirm (narrowF3 (toF binary32 eps32) (toF binary32 (1 / 10))) scene' pairs = .ok found ∧
      Good3 ((2 : ℝ) ^ (-24 : ℤ)) M ((2 : ℝ) ^ (-126 : ℤ)) (toF binary32 eps32) (toF binary32 (1 / 10)) scene' pairs found :=
  c116_sweep3 fmt32 hM (omega_pow hM hM' (by norm_num)) v s hax scene hok
/-- **C116 in `f32` with a tree, 3D.** -/
theorem c116_f32_tree3 {S : Type} (hM : 1 ≤ M) (hM' : M ≤ 2 ^ 23) (margin : V3 F32) (hx : binary32.zero ≤ margin.x) (hy : binary32.zero ≤ margin.y) (hz : binary32.zero ≤ margin.z) (area : Aabb3 F32 → S) (lt : S → S → Bool) (sub div : S → S → S) (im : S) (scene : List (Minkowski.Box3 ℝ × Dec3 ℝ))
    (hok : ∀ a ∈ scene, OkF3 binary32 M a) (hlen : scene.length ≤ 256) (rng : Nat → Nat) :
    ∃ h s pairs found, Exec (roundOps3 (V := Minkowski.Box3 ℝ × Dec3 ℝ) (K := F32) (boxF3 binary32) (fun a => addMarginF3 binary32 (boxF3 binary32 a) margin) area lt sub div im) h s ∧ s.values.map Prod.snd = scene ∧
      dbvtPairs (roundOps3 (V := Minkowski.Box3 ℝ × Dec3 ℝ) (K := F32) (boxF3 binary32) (fun a => addMarginF3 binary32 (boxF3 binary32 a) margin) area lt sub div im) Aabb3.intersects s (List.replicate scene.length true) = .ok pairs ∧
      bruteForce (boxF3 binary32) Aabb3.intersects scene = .ok pairs ∧ confirm (narrowF3 (toF binary32 eps32) (toF binary32 (1 / 10))) scene pairs = .ok found ∧ Good3 ((2 : ℝ) ^ (-24 : ℤ)) M ((2 : ℝ) ^ (-126 : ℤ)) (toF binary32 eps32) (toF binary32 (1 / 10)) scene pairs found :=
  c116_tree3 fmt32 hM (omega_pow hM hM' (by norm_num)) margin hx hy hz area lt sub div im scene hok hlen rng

/-- **C115, `f32`, 2D, on a grid**: when all coordinates are also multiples of `2^-21`, a miss is right up to rounding. -/
theorem c115_f32_grid (hM : 1 ≤ M) (hM' : M ≤ 2 ^ 25) {a b : Flat2 ℝ × Dec2 ℝ} (ha : OkF2 binary32 M a) (hb : OkF2 binary32 M b) (ga : a.1.Fine (2 ^ 21) ∧ Fine2 (2 ^ 21) a.2) (gb : b.1.Fine (2 ^ 21) ∧ Fine2 (2 ^ 21) b.2)
    (n : Nat) : ∃ o, gjkF2 (toF binary32 eps32) n a b = .ok o ∧ (o = .miss → NearlySeparated (1536 * ((2 : ℝ) ^ (-24 : ℤ) * M)) (at2 a) (at2 b)) := by
  obtain ⟨o, h1, h2, -⟩ := run_near std32 hM (omega_pow hM hM' (by norm_num)) fmt32.eps ha.shape hb.shape ha.place hb.place (keeps32 (k := 21) (J := 6) (by norm_num)) le_rfl (by positivity) (by
    rw [Nat.cast_pow, Nat.cast_ofNat, ← pow_mul, ← zpow_natCast, ← zpow_add₀ (by norm_num)]
    exact zpow_le_zpow_right₀ (by norm_num) (by norm_num)) ga.1 gb.1 ga.2 gb.2 n
  exact ⟨o, h1, h2⟩

/-! ## A case -/

/-- `f32` numbers `m / 2^k`. -/
theorem frac32 (m : ℤ) (k : ℕ) (hm : |m| < 2 ^ 24) (hk : k ≤ 30) : Rep binary32 (m / 2 ^ k) := by
  refine rep_of_rep32 ⟨m, -k, hm, by omega, by omega, ?_⟩
  rw [zpow_neg, zpow_natCast, div_eq_mul_inv]
/-- A square with side 4 at the origin, and one turned by the `f32` nearest to `(0.6, 0.8)` and moved by `(1, 1/3)`. -/
def squareA : Flat2 ℝ × Dec2 ℝ := (Flat2.square 4, ⟨1, ⟨⟨1, 0⟩, ⟨0, 1⟩⟩, 0⟩)
def squareB : Flat2 ℝ × Dec2 ℝ := (Flat2.square 4, ⟨1, ⟨⟨10066330 / 2 ^ 24, 13421773 / 2 ^ 24⟩, ⟨-13421773 / 2 ^ 24, 10066330 / 2 ^ 24⟩⟩, ⟨1, 11184811 / 2 ^ 25⟩⟩)
theorem c115_case : OkF2 binary32 2 squareA ∧ OkF2 binary32 2 squareB ∧ Deep2 (at2 squareA) (at2 squareB) (1 / 4) := by
  have r2 := frac32 2 0 (by norm_num) (by norm_num)
  have r4 := frac32 4 0 (by norm_num) (by norm_num)
  have r0 := frac32 0 0 (by norm_num) (by norm_num)
  have r1 := frac32 1 0 (by norm_num) (by norm_num)
  have rc := frac32 10066330 24 (by norm_num) (by norm_num)
  have rs := frac32 13421773 24 (by norm_num) (by norm_num)
  have rn := frac32 (-13421773) 24 (by norm_num) (by norm_num)
  have rd := frac32 11184811 25 (by norm_num) (by norm_num)
  push_cast at r2 r4 r0 r1 rc rs rn rd
  simp only [pow_zero, div_one] at r2 r4 r0 r1
  have e2 : (4 : ℝ) / 2 = 2 := by norm_num
  have hs : (Flat2.square 4 : Flat2 ℝ).Fits binary32 2 := ⟨by norm_num, r4, by rw [e2]; exact r2, by norm_num⟩
  have hD : Fits2 binary32 2 squareA.2 := ⟨rfl, ⟨r1, r0⟩, ⟨r0, r1⟩, ⟨by norm_num [squareA], by norm_num [squareA]⟩, ⟨by norm_num [squareA], by norm_num [squareA]⟩, ⟨r0, r0⟩, ⟨by simp [squareA], by simp [squareA]⟩⟩
  have hE : Fits2 binary32 2 squareB.2 := ⟨rfl, ⟨rc, rs⟩, ⟨rn, rc⟩, ⟨by norm_num [squareB, abs_le], by norm_num [squareB, abs_le]⟩, ⟨by norm_num [squareB, abs_le], by norm_num [squareB, abs_le]⟩, ⟨r1, rd⟩,
    ⟨by norm_num [squareB], by norm_num [squareB, abs_le]⟩⟩
  refine ⟨⟨hs, hD⟩, ⟨hs, hE⟩, ?_⟩
  intro t ht
  have hx : |t.x| ≤ 1 / 4 := (Real.abs_le_sqrt (by simp only [V2.dot]; nlinarith [mul_self_nonneg t.y])).trans ht
  have hy : |t.y| ≤ 1 / 4 := (Real.abs_le_sqrt (by simp only [V2.dot]; nlinarith [mul_self_nonneg t.x])).trans ht
  rw [abs_le] at hx hy
  refine ⟨⟨1 + t.x, 11184811 / 2 ^ 25 + t.y⟩, ⟨1, 11184811 / 2 ^ 25⟩, ⟨⟨1 + t.x, 11184811 / 2 ^ 25 + t.y⟩, ?_, ?_⟩, ⟨0, ?_, ?_⟩, ?_⟩
  · show (-((4 : ℝ) / 2) ≤ 1 + t.x ∧ 1 + t.x ≤ 4 / 2) ∧ (-((4 : ℝ) / 2) ≤ 11184811 / 2 ^ 25 + t.y ∧ 11184811 / 2 ^ 25 + t.y ≤ 4 / 2)
    norm_num
    exact ⟨⟨by linarith, by linarith⟩, ⟨by linarith, by linarith⟩⟩
  · ext <;> simp [squareA, Dec2.tr, M2.apply]
  · show (-((4 : ℝ) / 2) ≤ 0 ∧ (0 : ℝ) ≤ 4 / 2) ∧ (-((4 : ℝ) / 2) ≤ 0 ∧ (0 : ℝ) ≤ 4 / 2)
    norm_num
  · ext <;> simp [squareB, Dec2.tr, M2.apply]
  · ext <;> simp
/-- A case of the theorem: GJK in `f32` on the two squares answers, and does not miss them unless it asks for a subnormal direction. -/
theorem c115_example (n : Nat) : ∃ o, gjkF2 (toF binary32 eps32) n squareA squareB = .ok o ∧ (o = .miss → AskedTiny2 ((2 : ℝ) ^ (-126 : ℤ)) (toF binary32 eps32) n squareA squareB) := by
  obtain ⟨ha, hb, hd⟩ := c115_case
  obtain ⟨o, h1, h2, -⟩ := c115_f32_2d (M := 2) (by norm_num) (by norm_num) ha hb n
  exact ⟨o, h1, fun e => (h2 e).resolve_left (deep_not_nearly (by norm_num) (by norm_num) hd)⟩
/-- A case of the theorem: in `f32` the broad phase hands on the pair of squares. -/
theorem c116_example : ∃ pairs, bruteForce (boxF2 binary32) Aabb2.intersects [squareA, squareB] = .ok pairs ∧ pairs = [(0, 1)] := by
  obtain ⟨ha, hb, hd⟩ := c115_case
  have hok : ∀ a ∈ [squareA, squareB], OkF2 binary32 2 a := by
    intro a h
    simp only [List.mem_cons, List.not_mem_nil, or_false] at h
    rcases h with rfl | rfl
    · exact ha
    · exact hb
  obtain ⟨pairs, found, h1, -, ⟨nd, h2, h3⟩, -⟩ := c116_f32_brute2 (M := 2) (by norm_num) (by norm_num) _ hok
  refine ⟨pairs, h1, ?_⟩
  have hm : ∀ i j, (i, j) ∈ pairs ↔ (i, j) = (0, 1) := by
    intro i j
    constructor
    · intro h
      obtain ⟨k1, a, b, -, kb, -⟩ := h2 i j h
      have : j < 2 := (List.getElem?_eq_some_iff.1 kb).1
      have e1 : i = 0 := by omega
      have e2 : j = 1 := by omega
      rw [e1, e2]
    · rintro ⟨⟩
      exact (h3 0 1 squareA squareB (by norm_num) rfl rfl ⟨1 / 4, by norm_num, hd⟩).resolve_right id
  have hp : pairs.Perm [(0, 1)] := (List.perm_ext_iff_of_nodup nd (by simp)).2 (by rintro ⟨i, j⟩; rw [hm]; simp)
  exact List.perm_singleton.1 hp

end
end Verif.Scene
