import Verif.Scene.F64Closest
import Verif.Scene.F32Queries
import Verif.Scene.F64Pipeline3

/-! # Concrete cases, fourth part

Ray queries in 3D in `f64` (C110, C111): a row of cubes, and rays along an axis, so that the code computes with infinities. The pipelines in 3D in `f64` (C113): two cubes that overlap. -/

set_option linter.unusedSectionVars false

namespace Verif.Witnesses
open Verif Geom Primitive Minkowski BroadPhase Dbvt Verif.Scene
open Verif.Dbvt (Rounding F64 binary64 Rep64)
noncomputable section

theorem cubeRow_fits {n : ℤ} (h : n ∈ [2, 4]) : FitsB binary64 8 (Scene.cubeAt n) ∧ Solid (Scene.cubeAt n) := by
  have hn : n = 2 ∨ n = 4 := by simpa using h
  have r0 := rep_zero (R := binary64)
  have r1 := rep_one (R := binary64)
  have rn : Rep binary64 ((n : ℤ) : ℝ) := rep_int (by rcases hn with rfl | rfl <;> norm_num)
  have rn1 : Rep binary64 ((n : ℝ) + 1) := by
    have := rep_int (n := n + 1) (by rcases hn with rfl | rfl <;> norm_num)
    push_cast at this
    exact this
  refine ⟨⟨?_, ⟨⟨rn, r0, r0⟩, ?_⟩, ⟨rn1, r1, r1⟩, ?_⟩, ?_⟩ <;> rcases hn with rfl | rfl <;> norm_num [Sz3, Scene.cubeAt, Aabb3.Valid, Solid]
/-- The unit cube with the corner `(n, 0, 0)`. -/
def cubeRow (v : { n : ℤ // n ∈ [2, 4] }) : Box3M 8 := ⟨Scene.cubeAt v.1, (cubeRow_fits v.2).1, (cubeRow_fits v.2).2⟩
/-- The ray from `(0, y, 1/2)` along `x`. -/
theorem rayX_ok {y : ℝ} (ry : Rep binary64 y) (sy : |y| ≤ 8) : Ray3M 8 ⟨0, y, 1 / 2⟩ ⟨1, 0, 0⟩ := by
  have r0 := rep_zero (R := binary64)
  have r1 := rep_one (R := binary64)
  have rh : Rep binary64 (1 / 2) := rep_of_rep64 ⟨1, -1, by norm_num, by norm_num, by norm_num, by norm_num⟩
  exact ⟨⟨r0, ry, rh⟩, ⟨by norm_num, sy, by norm_num⟩, ⟨r1, by norm_num, Or.inr (by rw [abs_one]; exact dirMin_le)⟩, ⟨r0, by norm_num, Or.inl rfl⟩, ⟨r0, by norm_num, Or.inl rfl⟩, Or.inl one_ne_zero⟩

/-- C110 on a tree in 3D: the ray from `(0, 1/2, 1/2)` along `x` hits both cubes, and the ray from `(0, 4, 1/2)` none. -/
example (nz : V3 Bool) (rng : Nat → Nat) : ∃ (s : Dbvt { n : ℤ // n ∈ [2, 4] } Solid64) (l l' : List ({ n : ℤ // n ∈ [2, 4] } × V3 (WithNan F64))),
    s.query (solidOps (fun v => (cubeRow v).f64) ⟨f0, f0, f0⟩ ⟨le_rfl, le_rfl, le_rfl⟩ (fun _ => ()) (fun _ _ => false) (fun _ _ => ()) (fun _ _ => ()) ())
      (continuousVisitor fun b => intersectionN3 binary64 nz (vecR binary64 ⟨0, 1 / 2, 1 / 2⟩) (vecR binary64 ⟨1, 0, 0⟩) b.1) () = .ok l ∧
    (∀ v, ∃ p, (v, p) ∈ l) ∧ l.length = 2 ∧
    s.query (solidOps (fun v => (cubeRow v).f64) ⟨f0, f0, f0⟩ ⟨le_rfl, le_rfl, le_rfl⟩ (fun _ => ()) (fun _ _ => false) (fun _ _ => ()) (fun _ _ => ()) ())
      (continuousVisitor fun b => intersectionN3 binary64 nz (vecR binary64 ⟨0, 4, 1 / 2⟩) (vecR binary64 ⟨1, 0, 0⟩) b.1) () = .ok l' ∧ l' = [] := by
  have rh : Rep binary64 (1 / 2) := rep_of_rep64 ⟨1, -1, by norm_num, by norm_num, by norm_num, by norm_num⟩
  have r4 : Rep binary64 4 := by simpa using rep_int (n := 4) (by norm_num)
  obtain ⟨s, -, hq⟩ := c110_tree3 (M := 8) (by norm_num) (by norm_num) cubeRow ⟨f0, f0, f0⟩ ⟨le_rfl, le_rfl, le_rfl⟩ (fun _ => ()) (fun _ _ => false) (fun _ _ => ()) (fun _ _ => ()) () [⟨2, by simp⟩, ⟨4, by simp⟩] (by simp) rng
  obtain ⟨l, h1, sub, h2, -⟩ := hq nz _ _ (rayX_ok rh (by norm_num))
  obtain ⟨l', h1', -, -, h3'⟩ := hq nz _ _ (rayX_ok r4 (by norm_num))
  have all : ∀ v : { n : ℤ // n ∈ [2, 4] }, ∃ p, (v, p) ∈ l := by
    rintro ⟨m, hm⟩
    have hm' : m = 2 ∨ m = 4 := by simpa using hm
    rcases hm' with rfl | rfl
    · exact h2 _ (by simp) ⟨5 / 2, by norm_num, by norm_num [Scene.Around3, along3, cubeRow, Scene.cubeAt, rayErr64]⟩
    · exact h2 _ (by simp) ⟨9 / 2, by norm_num, by norm_num [Scene.Around3, along3, cubeRow, Scene.cubeAt, rayErr64]⟩
  refine ⟨s, l, l', h1, all, ?_, h1', ?_⟩
  · have k1 := sub.length_le
    rw [List.length_map] at k1
    have k2 : ([⟨2, by simp⟩, ⟨4, by simp⟩] : List { n : ℤ // n ∈ [2, 4] }).Subperm (l.map Prod.fst) := by
      refine List.subperm_of_subset (by simp) (fun v _ => ?_)
      obtain ⟨p, hp⟩ := all v
      exact List.mem_map_of_mem hp
    have k3 := k2.length_le
    rw [List.length_map] at k3
    exact le_antisymm k1 k3
  · rw [List.eq_nil_iff_forall_not_mem]
    rintro ⟨⟨m, hm⟩, p⟩ hp
    obtain ⟨-, q, -, -, t, -, -, ha, -⟩ := h3' _ p hp
    have hm' : m = 2 ∨ m = 4 := by simpa using hm
    have a := ha.2.1
    rcases hm' with rfl | rfl <;> norm_num [along3, cubeRow, Scene.cubeAt, rayErr64] at a

/-- C111 in 3D: the closest hit of the ray from `(0, 1/2, 1/2)` along `x` is on the first cube. -/
example (nz : V3 Bool) (rng : Nat → Nat) : ∃ (s : Dbvt { n : ℤ // n ∈ [2, 4] } (Box3M 8)) (q : V3 ℝ),
    queryRayClosest64_3 (opsM3 cubeRow cubeRow (fun _ => ()) (fun _ _ => false) (fun _ _ => ()) (fun _ _ => ()) ()) s nz ⟨0, 1 / 2, 1 / 2⟩ ⟨1, 0, 0⟩ = .ok (some (⟨2, by simp⟩, someV (vecR binary64 q))) ∧
    Close3 (1 / 1024) q ⟨2, 1 / 2, 1 / 2⟩ := by
  obtain ⟨h, s, he, hd, hu, hr, hv⟩ := build_tree (opsM3 cubeRow cubeRow (fun _ => ()) (fun _ _ => false) (fun _ _ => ()) (fun _ _ => ()) ()) [⟨2, by simp⟩, ⟨4, by simp⟩] rng
  obtain ⟨n, hh, -, -, hn, -⟩ := c04_height _ he hr
  have hl : s.values.length = 2 := by rw [← List.length_map (f := Prod.snd), hv]; rfl
  have rh : Rep binary64 (1 / 2) := rep_of_rep64 ⟨1, -1, by norm_num, by norm_num, by norm_num, by norm_num⟩
  obtain ⟨res, h1, h2, h3⟩ := c111_outside3_partial (M := 8) (by norm_num) (by norm_num) cubeRow cubeRow _ _ _ _ _ (fun v => c26_order3.1 _) he hd hu hr hh (by omega) nz (rayX_ok rh (by norm_num)) ⟨⟨2, 0, 0⟩, ⟨5, 1, 1⟩⟩
    (by
      rintro ⟨m, hm⟩ -
      have hm' : m = 2 ∨ m = 4 := by simpa using hm
      rcases hm' with rfl | rfl <;> exact contains_iff3.2 (by norm_num [cubeRow, Scene.cubeAt]))
    (by
      intro hm
      have := hm.1.1
      norm_num at this)
  rw [hv] at h2 h3
  have pass : Around3 (cubeRow ⟨2, by simp⟩).box (-rayErr64 8) (along3 ⟨0, 1 / 2, 1 / 2⟩ ⟨1, 0, 0⟩ (2 + 1 / 2048)) := by norm_num [Scene.Around3, along3, cubeRow, Scene.cubeAt, rayErr64]
  cases res with
  | none => exact absurd ⟨_, by norm_num, pass⟩ (h2 rfl ⟨2, by simp⟩ (by simp))
  | some vp =>
    obtain ⟨v, p⟩ := vp
    obtain ⟨hvm, q, t, rfl, t0, hc, ha, hmin⟩ := h3 v p rfl
    have hm := hmin ⟨2, by simp⟩ (by simp) _ (by norm_num) pass
    norm_num [distErr64] at hm
    have hv2 : v = ⟨2, by simp⟩ := by
      simp only [List.mem_cons, List.not_mem_nil, or_false] at hvm
      rcases hvm with rfl | rfl
      · rfl
      · have := ha.1.1
        norm_num [cubeRow, Scene.cubeAt, along3, rayErr64] at this
        linarith
    subst hv2
    refine ⟨s, q, h1, ?_, ?_, ?_⟩
    · have e1 := hc.1
      have e2 := ha.1.1
      norm_num [cubeRow, Scene.cubeAt, along3, rayErr64, abs_le] at e1 e2 ⊢
      constructor <;> linarith [e1.1, e1.2]
    · have e1 := hc.2.1
      norm_num [along3, rayErr64, abs_le] at e1 ⊢
      constructor <;> linarith [e1.1, e1.2]
    · have e1 := hc.2.2
      norm_num [along3, rayErr64, abs_le] at e1 ⊢
      constructor <;> linarith [e1.1, e1.2]

/-! ## The pipelines in `f64` (C113) -/
/-- The cubes of `c114_case`. -/
def twoCubes : List Placed64 := [cubeA, cubeB]
theorem twoCubes_ok : ∀ a ∈ twoCubes, a.Ok 7 := by
  intro a h
  simp only [twoCubes, List.mem_cons, List.not_mem_nil, or_false] at h
  rcases h with rfl | rfl
  · exact c114_case.1
  · exact c114_case.2.1
/-- What C113 says about them. -/
theorem twoCubes_found {pairs found : List (Nat × Nat)} (h : Handed3 7 twoCubes pairs) (k : Found3 7 twoCubes found) :
    (∀ i j, (i, j) ∈ pairs ↔ (i, j) = (0, 1)) ∧ ((0, 1) ∈ found ∨ runN3 100 cubeA cubeB = .ok .exhausted ∨ AskedZero 100 cubeA cubeB) := by
  have hd := c114_case.2.2
  refine ⟨fun i j => ⟨fun q => ?_, ?_⟩, k.2.2 0 1 _ _ 3 (by norm_num) rfl rfl (by norm_num) hd⟩
  · obtain ⟨k1, a, b, -, kb, -⟩ := h.1 i j q
    have : j < 2 := (List.getElem?_eq_some_iff.1 kb).1
    have e1 : i = 0 := by omega
    have e2 : j = 1 := by omega
    rw [e1, e2]
  · rintro ⟨⟩
    exact h.2 0 1 _ _ 3 (by norm_num) rfl rfl (by norm_num [slack3]) hd
/-- C113, brute force. -/
example : ∃ pairs found, bruteForce solid64 Aabb3.intersects twoCubes = .ok pairs ∧ (∀ i j, (i, j) ∈ pairs ↔ (i, j) = (0, 1)) ∧ confirm narrow3 twoCubes pairs = .ok found ∧
    ((0, 1) ∈ found ∨ runN3 100 cubeA cubeB = .ok .exhausted ∨ AskedZero 100 cubeA cubeB) := by
  obtain ⟨pairs, found, h1, h2, h3, h4⟩ := c113_brute_partial (M := 7) (by norm_num) (by norm_num) twoCubes twoCubes_ok
  obtain ⟨k1, k2⟩ := twoCubes_found h2 h4
  exact ⟨pairs, found, h1, k1, h3, k2⟩
/-- C113, a tree built of the cubes, with a margin of zero. -/
example {S : Type} (area : Aabb3 F64 → S) (lt : S → S → Bool) (sub div : S → S → S) (im : S) (rng : Nat → Nat) :
    ∃ h s pairs, Exec (roundOps3 (V := Placed64) (K := F64) solid64 (fun a => addMarginF3 binary64 (solid64 a) ⟨binary64.zero, binary64.zero, binary64.zero⟩) area lt sub div im) h s ∧ s.values.map Prod.snd = twoCubes ∧
      dbvtPairs (roundOps3 (V := Placed64) (K := F64) solid64 (fun a => addMarginF3 binary64 (solid64 a) ⟨binary64.zero, binary64.zero, binary64.zero⟩) area lt sub div im) Aabb3.intersects s [true, true] = .ok pairs ∧
      ∀ i j, (i, j) ∈ pairs ↔ (i, j) = (0, 1) := by
  obtain ⟨h, s, pairs, found, h1, h2, h3, -, h4, -, h5⟩ := c113_tree_partial (M := 7) (by norm_num) (by norm_num) ⟨binary64.zero, binary64.zero, binary64.zero⟩ le_rfl le_rfl le_rfl area lt sub div im twoCubes twoCubes_ok (by simp [twoCubes]) rng
  exact ⟨h, s, pairs, h1, h2, h3, (twoCubes_found h4 h5).1⟩
/-- C113, sweep and prune along `z`. -/
example {σ : Type} (v : VarOps σ (Aabb3 (Fl binary64))) (s : Sap σ) (hs : s.sweep_axis = 2) : ∃ pairs scene' s', s.findColliderPairs sapAabb3 v solid64 twoCubes = .ok (pairs, scene', s') ∧ scene'.Perm twoCubes ∧
    (scene' = twoCubes → ∀ i j, (i, j) ∈ pairs ↔ (i, j) = (0, 1)) := by
  obtain ⟨pairs, scene', s', found, h1, h2, h3, -, h4⟩ := c113_sweep_partial (M := 7) (by norm_num) (by norm_num) v s (by omega) twoCubes twoCubes_ok
  exact ⟨pairs, scene', s', h1, h2, fun e => (twoCubes_found (e ▸ h3) (e ▸ h4)).1⟩
end
end Verif.Witnesses
