import Verif.Scene.Formats
import Verif.Scene.RoundPipeline

/-! # Concrete cases, third part

Scenes in 3D in `f32`: three cubes, two of which overlap (C115, C116), and a cylinder with a capsule and a box (C117, C118). -/

set_option linter.unusedSectionVars false

namespace Verif.Witnesses
open Verif Geom Primitive Minkowski BroadPhase Dbvt Verif.Scene
open Verif.Dbvt (Rounding F64 binary64 Rep64)
open Verif.Dbvt.B32 (F32 binary32 Rep32)
noncomputable section

/-! ## Cubes (C115, C116) -/
/-- No turn. -/
def still : M3 ℝ := ⟨⟨1, 0, 0⟩, ⟨0, 1, 0⟩, ⟨0, 0, 1⟩⟩
/-- A cube with side 4 at `(x, 0, 0)`. -/
def cubeAt (x : ℝ) : Minkowski.Box3 ℝ × Dec3 ℝ := (.cube 4, ⟨1, still, ⟨x, 0, 0⟩⟩)
theorem cubeAt_ok {x : ℝ} (rx : Rep binary32 x) (sx : |x| ≤ 8) : OkF3 binary32 8 (cubeAt x) := by
  have r0 := frac32 0 0 (by norm_num) (by norm_num)
  have r1 := frac32 1 0 (by norm_num) (by norm_num)
  have r2 := frac32 2 0 (by norm_num) (by norm_num)
  have r4 := frac32 4 0 (by norm_num) (by norm_num)
  push_cast at r0 r1 r2 r4
  simp only [pow_zero, div_one] at r0 r1 r2 r4
  have e2 : (4 : ℝ) / 2 = 2 := by norm_num
  have hm : FitsM binary32 still := ⟨⟨r1, r0, r0⟩, ⟨r0, r1, r0⟩, ⟨r0, r0, r1⟩, ⟨by simp [still], by simp [still], by simp [still]⟩, ⟨by simp [still], by simp [still], by simp [still]⟩, by simp [still], by simp [still], by simp [still]⟩
  exact ⟨⟨by norm_num, r4, by rw [e2]; exact r2, by norm_num⟩, rfl, hm, ⟨rx, r0, r0⟩, sx, by simp [cubeAt], by simp [cubeAt]⟩
/-- The points of such a cube. -/
theorem cubeAt_in {x : ℝ} {p : V3 ℝ} (h1 : |p.x - x| ≤ 2) (h2 : |p.y| ≤ 2) (h3 : |p.z| ≤ 2) : at3 (cubeAt x) p := by
  rw [abs_le] at h1 h2 h3
  refine ⟨⟨p.x - x, p.y, p.z⟩, ?_, ?_⟩
  · show (-((4 : ℝ) / 2) ≤ _ ∧ _ ≤ (4 : ℝ) / 2) ∧ (-((4 : ℝ) / 2) ≤ _ ∧ _ ≤ (4 : ℝ) / 2) ∧ (-((4 : ℝ) / 2) ≤ _ ∧ _ ≤ (4 : ℝ) / 2)
    norm_num
    exact ⟨⟨by linarith, by linarith⟩, h2, h3⟩
  · ext <;> simp [cubeAt, still, Dec3.tr, M3.apply]
/-- Cubes whose centres are 1 apart overlap by 1 in every direction. -/
theorem cubes_deep : Deep3 (at3 (cubeAt 0)) (at3 (cubeAt 1)) 1 := by
  intro t ht
  have hx : |t.x| ≤ 1 := (Real.abs_le_sqrt (by simp only [V3.dot]; nlinarith [mul_self_nonneg t.y, mul_self_nonneg t.z])).trans ht
  have hy : |t.y| ≤ 1 := (Real.abs_le_sqrt (by simp only [V3.dot]; nlinarith [mul_self_nonneg t.x, mul_self_nonneg t.z])).trans ht
  have hz : |t.z| ≤ 1 := (Real.abs_le_sqrt (by simp only [V3.dot]; nlinarith [mul_self_nonneg t.x, mul_self_nonneg t.y])).trans ht
  refine ⟨⟨1 + t.x, t.y, t.z⟩, ⟨1, 0, 0⟩, cubeAt_in ?_ ?_ ?_, cubeAt_in ?_ ?_ ?_, ?_⟩
  · show |1 + t.x - 0| ≤ 2
    rw [abs_le] at *; constructor <;> linarith
  · exact hy.trans (by norm_num)
  · exact hz.trans (by norm_num)
  · norm_num
  · norm_num
  · norm_num
  · ext <;> simp
theorem rep32 (n : Nat) (h : (n : ℤ) ∈ [0, 1, 8]) : Rep binary32 (n : ℝ) := by
  have r0 := frac32 0 0 (by norm_num) (by norm_num)
  have r1 := frac32 1 0 (by norm_num) (by norm_num)
  have r8 := frac32 8 0 (by norm_num) (by norm_num)
  push_cast at r0 r1 r8
  simp only [pow_zero, div_one] at r0 r1 r8
  simp only [List.mem_cons, List.not_mem_nil, or_false] at h
  rcases h with h | h | h
  · have : n = 0 := by omega
    subst this; simpa using r0
  · have : n = 1 := by omega
    subst this; simpa using r1
  · have : n = 8 := by omega
    subst this; simpa using r8
/-- Two cubes that overlap, and one far from both. -/
def cubes : List (Minkowski.Box3 ℝ × Dec3 ℝ) := [cubeAt 0, cubeAt 1, cubeAt 8]
theorem cubes_ok : ∀ a ∈ cubes, OkF3 binary32 8 a := by
  intro a h
  simp only [cubes, List.mem_cons, List.not_mem_nil, or_false] at h
  rcases h with rfl | rfl | rfl
  · exact cubeAt_ok (by simpa using rep32 0 (by simp)) (by norm_num)
  · exact cubeAt_ok (by simpa using rep32 1 (by simp)) (by norm_num)
  · exact cubeAt_ok (by simpa using rep32 8 (by simp)) (by norm_num)
/-- The exact bound of a cube. -/
theorem cubeAt_box (x : ℝ) : worldBox3 ((cubeAt x).1.prim, (cubeAt x).2) = ⟨⟨x - 2, -2, -2⟩, ⟨x + 2, 2, 2⟩⟩ := by
  have h1 : (cubeAt x).1.prim.bound = ⟨⟨-2, -2, -2⟩, ⟨2, 2, 2⟩⟩ := by
    show Aabb3.new (-((⟨4, 4, 4⟩ : V3 ℝ) / (1 + 1 : ℝ))) ((⟨4, 4, 4⟩ : V3 ℝ) / (1 + 1 : ℝ)) = _
    unfold Aabb3.new
    ext <;> norm_num [Geom.pmin_eq, Geom.pmax_eq]
  have h2 : ∀ p : V3 ℝ, (cubeAt x).2.tr.point p = ⟨p.x + x, p.y, p.z⟩ := by
    intro p
    ext <;> simp [cubeAt, still, Dec3.tr, M3.apply]
  show (cubeAt x).1.prim.bound.transform (cubeAt x).2.tr.point = _
  rw [h1]
  have a1 : min (-2 + x) (2 + x) = -2 + x := min_eq_left (by linarith)
  have a2 : max (-2 + x) (2 + x) = 2 + x := max_eq_right (by linarith)
  have a3 : max (2 + x) (-2 + x) = 2 + x := max_eq_left (by linarith)
  have a4 : min (2 + x) (-2 + x) = -2 + x := min_eq_right (by linarith)
  have b1 : min (-2 : ℝ) 2 = -2 := by norm_num
  have b2 : max (-2 : ℝ) 2 = 2 := by norm_num
  have b3 : min (2 : ℝ) (-2) = -2 := by norm_num
  have b4 : max (2 : ℝ) (-2) = 2 := by norm_num
  simp only [Aabb3.transform, Aabb3.toCorners, List.tail_cons, List.foldl_cons, List.foldl_nil, Aabb3.grow, Aabb3.new, V3.pmin, V3.pmax, Geom.pmin_eq, Geom.pmax_eq, h2, a1, a2, a3, a4, b1, b2, b3, b4, min_self, max_self]
  ext <;> simp <;> ring
/-- C115: GJK in `f32` on the two cubes answers, and does not miss them unless it asks for a subnormal direction. -/
example (n : Nat) : ∃ o, gjkF3 (toF binary32 eps32) (toF binary32 (1 / 10)) n (cubeAt 0) (cubeAt 1) = .ok o ∧
    (o = .miss → AskedTiny3 ((2 : ℝ) ^ (-126 : ℤ)) (toF binary32 eps32) (toF binary32 (1 / 10)) n (cubeAt 0) (cubeAt 1)) := by
  obtain ⟨o, h1, h2, -⟩ := c115_f32_3d (M := 8) (by norm_num) (by norm_num) (cubes_ok (cubeAt 0) (by simp [cubes])) (cubes_ok (cubeAt 1) (by simp [cubes])) n
  exact ⟨o, h1, fun e => (h2 e).resolve_left (deep3_not_nearly (by norm_num) (by norm_num) cubes_deep)⟩
/-- What C116 says about the cubes: the broad phase hands on the first two only, and the narrow phase keeps them, unless GJK runs out of iterations or asks for a subnormal direction. -/
theorem cubes_found {pairs found : List (Nat × Nat)} (h : Good3 ((2 : ℝ) ^ (-24 : ℤ)) 8 ((2 : ℝ) ^ (-126 : ℤ)) (toF binary32 eps32) (toF binary32 (1 / 10)) cubes pairs found) :
    pairs = [(0, 1)] ∧ (found = [(0, 1)] ∨ found = [] ∧ Lost3 ((2 : ℝ) ^ (-126 : ℤ)) (toF binary32 eps32) (toF binary32 (1 / 10)) (cubeAt 0) (cubeAt 1)) := by
  obtain ⟨⟨nd, h2, h3⟩, sub, -, -, h4⟩ := h
  have hm : ∀ i j, (i, j) ∈ pairs ↔ (i, j) = (0, 1) := by
    intro i j
    constructor
    · intro h
      obtain ⟨k1, a, b, ka, kb, ⟨m1, m2⟩, -⟩ := h2 i j h
      have hj : j < 3 := (List.getElem?_eq_some_iff.1 kb).1
      have : i = 0 ∧ j = 1 ∨ i = 0 ∧ j = 2 ∨ i = 1 ∧ j = 2 := by omega
      rcases this with ⟨rfl, rfl⟩ | ⟨rfl, rfl⟩ | ⟨rfl, rfl⟩
      · rfl
      · simp only [cubes, List.getElem?_cons_zero, List.getElem?_cons_succ, Option.some.injEq] at ka kb
        subst ka kb
        rw [cubeAt_box, cubeAt_box] at m1
        norm_num at m1
      · simp only [cubes, List.getElem?_cons_zero, List.getElem?_cons_succ, Option.some.injEq] at ka kb
        subst ka kb
        rw [cubeAt_box, cubeAt_box] at m1
        norm_num at m1
    · rintro ⟨⟩
      exact (h3 0 1 _ _ (by norm_num) rfl rfl ⟨1, by norm_num, cubes_deep⟩).resolve_right id
  have hp : pairs = [(0, 1)] := List.perm_singleton.1 ((List.perm_ext_iff_of_nodup nd (by simp)).2 (by rintro ⟨i, j⟩; rw [hm]; simp))
  subst hp
  refine ⟨rfl, ?_⟩
  rcases List.sublist_singleton.1 sub with rfl | rfl
  · exact Or.inr ⟨rfl, (h4 0 1 _ _ (by norm_num) rfl rfl ⟨1, by norm_num, cubes_deep⟩).resolve_left (by simp)⟩
  · exact Or.inl rfl
/-- C116, brute force. -/
example : ∃ found, bruteForce (boxF3 binary32) Aabb3.intersects cubes = .ok [(0, 1)] ∧ confirm (narrowF3 (toF binary32 eps32) (toF binary32 (1 / 10))) cubes [(0, 1)] = .ok found ∧
    (found = [(0, 1)] ∨ found = [] ∧ Lost3 ((2 : ℝ) ^ (-126 : ℤ)) (toF binary32 eps32) (toF binary32 (1 / 10)) (cubeAt 0) (cubeAt 1)) := by
  obtain ⟨pairs, found, h1, h2, h3⟩ := c116_f32_brute3 (M := 8) (by norm_num) (by norm_num) cubes cubes_ok
  obtain ⟨rfl, k⟩ := cubes_found h3
  exact ⟨found, h1, h2, k⟩
/-- C116, sweep and prune along `y`, where all bounds meet: some order of the cubes, and pairs of them. -/
example {σ : Type} (v : VarOps σ (Aabb3 (Fl binary32))) (s : Sap σ) (hs : s.sweep_axis = 1) : ∃ pairs scene' s', s.findColliderPairs sapAabb3 v (boxF3 binary32) cubes = .ok (pairs, scene', s') ∧ scene'.Perm cubes ∧ pairs.Nodup ∧
    ∀ i j, i < j → (scene'[i]? = some (cubeAt 0) ∧ scene'[j]? = some (cubeAt 1) → (i, j) ∈ pairs) := by
  obtain ⟨pairs, scene', s', found, h1, h2, -, ⟨⟨nd, -, h3⟩, -⟩⟩ := c116_f32_sweep3 (M := 8) (by norm_num) (by norm_num) v s (by omega) cubes cubes_ok
  exact ⟨pairs, scene', s', h1, h2, nd, fun i j hij ⟨ha, hb⟩ => (h3 i j _ _ hij ha hb ⟨1, by norm_num, cubes_deep⟩).resolve_right id⟩
/-- C116, a tree built of the cubes. -/
example {S : Type} (area : Aabb3 F32 → S) (lt : S → S → Bool) (sub div : S → S → S) (im : S) (rng : Nat → Nat) :
    ∃ h s, Exec (roundOps3 (V := Minkowski.Box3 ℝ × Dec3 ℝ) (K := F32) (boxF3 binary32) (fun a => addMarginF3 binary32 (boxF3 binary32 a) ⟨binary32.zero, binary32.zero, binary32.zero⟩) area lt sub div im) h s ∧ s.values.map Prod.snd = cubes ∧
      dbvtPairs (roundOps3 (V := Minkowski.Box3 ℝ × Dec3 ℝ) (K := F32) (boxF3 binary32) (fun a => addMarginF3 binary32 (boxF3 binary32 a) ⟨binary32.zero, binary32.zero, binary32.zero⟩) area lt sub div im) Aabb3.intersects s [true, true, true] = .ok [(0, 1)] := by
  obtain ⟨h, s, pairs, found, h1, h2, h3, -, -, h4⟩ := c116_f32_tree3 (M := 8) (by norm_num) (by norm_num) ⟨binary32.zero, binary32.zero, binary32.zero⟩ le_rfl le_rfl le_rfl area lt sub div im cubes cubes_ok (by simp [cubes]) rng
  obtain ⟨rfl, -⟩ := cubes_found h4
  exact ⟨h, s, h1, h2, h3⟩

/-! ## A cylinder and a capsule (C117, C118) -/
/-- The cylinder and the capsule of `c117_case3`. -/
def round : List (Any3 × Dec3 ℝ) := [canA, pillB]
theorem round_ok : ∀ a ∈ round, OkA3 binary32 2 a := by
  intro a h
  simp only [round, List.mem_cons, List.not_mem_nil, or_false] at h
  rcases h with rfl | rfl
  · exact c117_case3.1
  · exact c117_case3.2.1
/-- What C118 says about them, for any GJK as specified. -/
theorem round_found {nz : Any3 × Dec3 ℝ → V3 (Fl binary32) → Bool} {pairs found : List (Nat × Nat)} (h : GoodA3 ((2 : ℝ) ^ (-24 : ℤ)) 2 ((2 : ℝ) ^ (-61 : ℤ)) (toF binary32 eps32) (toF binary32 (1 / 10)) nz round pairs found) :
    pairs = [(0, 1)] ∧ (found = [(0, 1)] ∨ found = [] ∧ LostA3 ((2 : ℝ) ^ (-61 : ℤ)) (toF binary32 eps32) (toF binary32 (1 / 10)) nz canA pillB) := by
  obtain ⟨⟨nd, h2, h3⟩, sub, -, -, h4⟩ := h
  have hd := c117_case3.2.2
  have hm : ∀ i j, (i, j) ∈ pairs ↔ (i, j) = (0, 1) := by
    intro i j
    constructor
    · intro h
      obtain ⟨k1, a, b, -, kb, -⟩ := h2 i j h
      have : j < 2 := (List.getElem?_eq_some_iff.1 kb).1
      have e1 : i = 0 := by omega
      have e2 : j = 1 := by omega
      rw [e1, e2]
    · rintro ⟨⟩
      exact (h3 0 1 _ _ (by norm_num) rfl rfl ⟨1 / 4, by norm_num, hd⟩).resolve_right id
  have hp : pairs = [(0, 1)] := List.perm_singleton.1 ((List.perm_ext_iff_of_nodup nd (by simp)).2 (by rintro ⟨i, j⟩; rw [hm]; simp))
  subst hp
  refine ⟨rfl, ?_⟩
  rcases List.sublist_singleton.1 sub with rfl | rfl
  · exact Or.inr ⟨rfl, (h4 0 1 _ _ (by norm_num) rfl rfl ⟨1 / 4, by norm_num, hd⟩).resolve_left (by simp)⟩
  · exact Or.inl rfl
/-- C118, brute force, with a GJK that calls a pair a miss when rounding spoils a direction. -/
example (nz : Any3 × Dec3 ℝ → V3 (Fl binary32) → Bool) : ∃ narrow found, IsGjk3 ((2 : ℝ) ^ (-61 : ℤ)) (toF binary32 eps32) (toF binary32 (1 / 10)) nz round narrow ∧ bruteForce (boxA3 binary32) Aabb3.intersects round = .ok [(0, 1)] ∧ confirm narrow round [(0, 1)] = .ok found ∧
    (found = [(0, 1)] ∨ found = [] ∧ LostA3 ((2 : ℝ) ^ (-61 : ℤ)) (toF binary32 eps32) (toF binary32 (1 / 10)) nz canA pillB) := by
  have hg := isGjk3_self (fmtR32 (M := 2) (by norm_num) (by norm_num)) nz round_ok
  obtain ⟨pairs, found, h1, h2, h3⟩ := c118_f32_brute3 (M := 2) (by norm_num) (by norm_num) nz round round_ok hg
  obtain ⟨rfl, k⟩ := round_found h3
  exact ⟨_, found, hg, h1, h2, k⟩
/-- C118, a tree built of them. -/
example {S : Type} (area : Aabb3 F32 → S) (lt : S → S → Bool) (sub div : S → S → S) (im : S) (rng : Nat → Nat) :
    ∃ h s, Exec (roundOps3 (V := Any3 × Dec3 ℝ) (K := F32) (boxA3 binary32) (fun a => addMarginF3 binary32 (boxA3 binary32 a) ⟨binary32.zero, binary32.zero, binary32.zero⟩) area lt sub div im) h s ∧ s.values.map Prod.snd = round ∧
      dbvtPairs (roundOps3 (V := Any3 × Dec3 ℝ) (K := F32) (boxA3 binary32) (fun a => addMarginF3 binary32 (boxA3 binary32 a) ⟨binary32.zero, binary32.zero, binary32.zero⟩) area lt sub div im) Aabb3.intersects s [true, true] = .ok [(0, 1)] := by
  have hg := isGjk3_self (fmtR32 (M := 2) (by norm_num) (by norm_num)) (fun _ _ => true) round_ok
  obtain ⟨h, s, pairs, found, h1, h2, h3, -, -, h4⟩ := c118_f32_tree3 (M := 2) (by norm_num) (by norm_num) (fun _ _ => true) ⟨binary32.zero, binary32.zero, binary32.zero⟩ le_rfl le_rfl le_rfl area lt sub div im round round_ok hg (by simp [round]) rng
  obtain ⟨rfl, -⟩ := round_found h4
  exact ⟨h, s, h1, h2, h3⟩
/-- C118, sweep and prune: the one pair, with the scene in either order. -/
example {σ : Type} (v : VarOps σ (Aabb3 (Fl binary32))) (s : Sap σ) (hs : s.sweep_axis = 2) (nz : Any3 × Dec3 ℝ → V3 (Fl binary32) → Bool) : ∃ pairs scene' s', s.findColliderPairs sapAabb3 v (boxA3 binary32) round = .ok (pairs, scene', s') ∧ scene'.Perm round ∧
    (scene' = round → pairs = [(0, 1)]) := by
  have hg := isGjk3_self (fmtR32 (M := 2) (by norm_num) (by norm_num)) nz round_ok
  obtain ⟨pairs, scene', s', found, h1, h2, -, h3⟩ := c118_f32_sweep3 (M := 2) (by norm_num) (by norm_num) nz v s (by omega) round round_ok hg
  exact ⟨pairs, scene', s', h1, h2, fun e => (round_found (e ▸ h3)).1⟩
end
end Verif.Witnesses
