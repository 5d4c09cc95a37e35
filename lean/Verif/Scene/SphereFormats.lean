import Verif.Scene.SphereTree
import Verif.Minkowski.F32
/-!
# C119 in `f32` and `f64`
-/
namespace Verif.Scene
open Verif Geom Primitive Minkowski
open Verif.Dbvt (Rounding SphereF subF mag2F Ops Hist Dbvt Exec Disciplined UpToDate Refitted! discreteVisitor Given F64 binary64 Rep64)
open Verif.Dbvt.B32 (F32 binary32 Rep32)
set_option linter.unusedSectionVars false
noncomputable section
open Classical

theorem zpow2_pos (e : ℤ) : (0 : ℝ) < (2 : ℝ) ^ e := zpow_pos (by norm_num) e
theorem zpow2_le {a b : ℤ} (h : a ≤ b) : (2 : ℝ) ^ a ≤ (2 : ℝ) ^ b := zpow_le_zpow_right₀ (by norm_num) h
theorem zpow2_mul (a b : ℤ) : (2 : ℝ) ^ a * (2 : ℝ) ^ b = (2 : ℝ) ^ (a + b) := (zpow_add₀ (by norm_num) a b).symm

/-- The bounds of `TreeStd`, for powers of two. -/
theorem tree_of_pow {F : Type} [LinearOrder F] {R : Rounding F} {p e o lo hi : ℤ} {N : ℝ} (h : Std R ((2 : ℝ) ^ p) ((2 : ℝ) ^ e) ((2 : ℝ) ^ o)) (hp : p ≤ -12) (hpe : e ≤ p) (tiny : ∀ x, Rep R x → 0 < x → (2 : ℝ) ^ e ≤ x)
    (h1 : 5 + e ≤ 3 * p + 2 * lo) (h2 : 8 + 2 * hi ≤ o) (h3 : 8 + hi ≤ o) (hlo : (2 : ℝ) ^ lo ≤ N) (hhi : N ≤ (2 : ℝ) ^ hi) : TreeStd R ((2 : ℝ) ^ p) ((2 : ℝ) ^ e) ((2 : ℝ) ^ o) N where
  std := h
  u' := by
    have := zpow2_le hp
    norm_num at this ⊢
    exact this
  ηu := zpow2_le hpe
  tiny := tiny
  N0 := (zpow2_pos lo).trans_le hlo
  low := by
    have e1 : (2 : ℝ) ^ p * (((2 : ℝ) ^ p * N) * ((2 : ℝ) ^ p * N)) = ((2 : ℝ) ^ p * (2 : ℝ) ^ p * (2 : ℝ) ^ p) * (N * N) := by ring
    have e2 : (32 : ℝ) = (2 : ℝ) ^ (5 : ℤ) := by norm_num
    rw [e1, e2, zpow2_mul, zpow2_mul, zpow2_mul]
    have e3 : (2 : ℝ) ^ (lo + lo) ≤ N * N := by
      rw [← zpow2_mul]
      exact mul_self_le_mul_self (zpow2_pos lo).le hlo
    refine le_trans ?_ (mul_le_mul_of_nonneg_left e3 (zpow2_pos _).le)
    rw [zpow2_mul]
    exact zpow2_le (by omega)
  high := by
    have e2 : (256 : ℝ) = (2 : ℝ) ^ (8 : ℤ) := by norm_num
    have e3 : N * N ≤ (2 : ℝ) ^ (hi + hi) := by
      rw [← zpow2_mul]
      exact mul_self_le_mul_self ((zpow2_pos lo).le.trans hlo) hhi
    rw [e2]
    refine (mul_le_mul_of_nonneg_left e3 (zpow2_pos _).le).trans ?_
    rw [zpow2_mul]
    exact zpow2_le (by omega)
  high' := by
    have e2 : (256 : ℝ) = (2 : ℝ) ^ (8 : ℤ) := by norm_num
    rw [e2]
    refine (mul_le_mul_of_nonneg_left hhi (zpow2_pos _).le).trans ?_
    rw [zpow2_mul]
    exact zpow2_le (by omega)

theorem tiny64 (x : ℝ) (hx : Rep binary64 x) (x0 : 0 < x) : (2 : ℝ) ^ (-1075 : ℤ) ≤ x := by
  obtain ⟨m, e, h1, h2, h3, h4⟩ := rep64_of_rep hx
  have hm : 1 ≤ m := by
    by_contra hcon
    have : (m : ℝ) ≤ 0 := by exact_mod_cast (by omega : m ≤ 0)
    have := mul_nonpos_of_nonpos_of_nonneg this (zpow2_pos e).le
    linarith
  have hm' : (1 : ℝ) ≤ m := by exact_mod_cast hm
  have h5 := mul_le_mul_of_nonneg_right hm' (zpow2_pos e).le
  have h6 := zpow2_le (show (-1075 : ℤ) ≤ e by omega)
  rw [h4]
  linarith
theorem tiny32 (x : ℝ) (hx : Rep binary32 x) (x0 : 0 < x) : (2 : ℝ) ^ (-150 : ℤ) ≤ x := by
  obtain ⟨m, e, h1, h2, h3, h4⟩ := rep32_of_rep hx
  have hm : 1 ≤ m := by
    by_contra hcon
    have : (m : ℝ) ≤ 0 := by exact_mod_cast (by omega : m ≤ 0)
    have := mul_nonpos_of_nonpos_of_nonneg this (zpow2_pos e).le
    linarith
  have hm' : (1 : ℝ) ≤ m := by exact_mod_cast hm
  have h5 := mul_le_mul_of_nonneg_right hm' (zpow2_pos e).le
  have h6 := zpow2_le (show (-150 : ℤ) ≤ e by omega)
  rw [h4]
  linarith
theorem tree64 {N : ℝ} (h1 : (2 : ℝ) ^ (-400 : ℤ) ≤ N) (h2 : N ≤ (2 : ℝ) ^ (500 : ℤ)) : TreeStd binary64 ((2 : ℝ) ^ (-53 : ℤ)) ((2 : ℝ) ^ (-1075 : ℤ)) ((2 : ℝ) ^ (1022 : ℤ)) N :=
  tree_of_pow std64 (by norm_num) (by norm_num) tiny64 (by norm_num) (by norm_num) (by norm_num) h1 h2
theorem tree32 {N : ℝ} (h1 : (2 : ℝ) ^ (-36 : ℤ) ≤ N) (h2 : N ≤ (2 : ℝ) ^ (59 : ℤ)) : TreeStd binary32 ((2 : ℝ) ^ (-24 : ℤ)) ((2 : ℝ) ^ (-150 : ℤ)) ((2 : ℝ) ^ (126 : ℤ)) N :=
  tree_of_pow std32 (by norm_num) (by norm_num) tiny32 (by norm_num) (by norm_num) (by norm_num) h1 h2
theorem tree_size {n : ℕ} {M : ℝ} {lo hi : ℤ} (hn0 : n ≠ 0) (hn : n ≤ 256) (h1 : (2 : ℝ) ^ lo ≤ M) (h2 : M ≤ (2 : ℝ) ^ hi) : (2 : ℝ) ^ lo ≤ 5 * n * M ∧ 5 * n * M ≤ (2 : ℝ) ^ (11 + hi) := by
  have h0 := (zpow2_pos lo).trans_le h1
  have hn1 : (1 : ℝ) ≤ n := by exact_mod_cast Nat.one_le_iff_ne_zero.2 hn0
  have hn2 : (n : ℝ) ≤ 256 := by exact_mod_cast hn
  have h3 := mul_le_mul_of_nonneg_right hn1 h0.le
  have h4 := mul_le_mul_of_nonneg_right hn2 h0.le
  refine ⟨by linarith, ?_⟩
  rw [← zpow2_mul]
  have : (2 : ℝ) ^ (11 : ℤ) = 2048 := by norm_num
  rw [this]
  linarith

section tree
variable {V S : Type} {bs : V → RSphere} {ms : V → V3 ℝ} {lt : S → S → Bool} {sub div : S → S → S} {im : S}

theorem height_ne_zero {B : Type} {O : Ops V B S} {h : Hist V} {s : Dbvt V B} (he : Exec O h s) (hr : Refitted! h) {n : ℕ} (hh : s.height = .ok n) {e : Nat × V} (hv : e ∈ s.values) : n ≠ 0 := by
  rintro rfl
  obtain ⟨m, h1, -, h4, -, -⟩ := Dbvt.c04_height O he hr
  rw [hh] at h1
  cases h1
  have h5 := h4 (List.ne_nil_of_mem hv)
  generalize hz : (0 : ℕ) = z at h5
  cases h5 <;> omega

/-- **C119 in `f64`.** Trees of spheres with coordinates and radii up to `M`, from `2^-400` to `2^400`: every value whose sphere overlaps the query sphere by `2500 n² M` unit roundoffs or more is reported, `n` being the
height of the tree. (Queries of trees higher than 256 panic, C11.) -/
theorem c119_f64_found {area : SphereF F64 → S} (hb : ∀ v, RpS binary64 (bs v)) (hm : ∀ v, Rep3 binary64 (ms v) ∧ 0 ≤ top3 (ms v)) {h : Hist V} {s : Dbvt V (SphereF F64)}
    (he : Exec (ballTreeOps binary64 (fun v => toS binary64 (bs v)) (fun v => toV3 binary64 (ms v)) area lt sub div im) h s)
    (hd : Disciplined (ballTreeOps binary64 (fun v => toS binary64 (bs v)) (fun v => toV3 binary64 (ms v)) area lt sub div im) h)
    (hu : UpToDate (ballTreeOps binary64 (fun v => toS binary64 (bs v)) (fun v => toV3 binary64 (ms v)) area lt sub div im) h) (hr : Refitted! h) {n : ℕ} (hh : s.height = .ok n) (hn : n ≤ 256)
    {M : ℝ} (hlo : (2 : ℝ) ^ (-400 : ℤ) ≤ M) (hhi : M ≤ (2 : ℝ) ^ (400 : ℤ)) (hM : ∀ v, Given h v → InS M M (bs v) ∧ top3 (ms v) ≤ M / 2)
    {q : RSphere} (rq : RpS binary64 q) (hq : InS M M q) {e : Nat × V} (hv : e ∈ s.values)
    (hov : (q.center - (bs e.2).center).norm + 2500 * (n * n * (2 : ℝ) ^ (-53 : ℤ) * M) ≤ q.radius + (bs e.2).radius) :
    ∃ l, s.query (ballTreeOps binary64 (fun v => toS binary64 (bs v)) (fun v => toV3 binary64 (ms v)) area lt sub div im) (discreteVisitor fun b => SphereF.intersects binary64 b (toS binary64 q)) () = .ok l ∧
      e.2 ∈ l.map Prod.fst := by
  obtain ⟨t1, t2⟩ := tree_size (height_ne_zero he hr hh hv) hn hlo hhi
  refine c119_found hb hm he hd hu hr hh hn (tree64 t1 (t2.trans (zpow2_le (by norm_num)))) ?_ hM rq hq hv hov
  have h1 : ((n : ℝ) * n) ≤ 256 * 256 := by
    have : (n : ℝ) ≤ 256 := by exact_mod_cast hn
    exact mul_le_mul this this (Nat.cast_nonneg n) (by norm_num)
  have h2 := mul_le_mul_of_nonneg_right h1 (zpow2_pos (-53)).le
  have h3 : (2 : ℝ) ^ (-53 : ℤ) = 1 / 9007199254740992 := by norm_num
  rw [h3] at h2 ⊢
  linarith
/-- **C119 in `f64`.** Nothing is reported whose sphere is further away than 60 unit roundoffs of the scene, and nothing twice. -/
theorem c119_f64_reported {area : SphereF F64 → S} (hb : ∀ v, RpS binary64 (bs v)) {h : Hist V} {s : Dbvt V (SphereF F64)}
    (he : Exec (ballTreeOps binary64 (fun v => toS binary64 (bs v)) (fun v => toV3 binary64 (ms v)) area lt sub div im) h s) {M : ℝ} (hlo : (2 : ℝ) ^ (-400 : ℤ) ≤ M) (hhi : M ≤ (2 : ℝ) ^ (400 : ℤ))
    (hM : ∀ v, Given h v → InS M M (bs v)) {q : RSphere} (rq : RpS binary64 q) (hq : InS M M q) {l : List (Nat × Unit)}
    (hl : s.queryForIndices (ballTreeOps binary64 (fun v => toS binary64 (bs v)) (fun v => toV3 binary64 (ms v)) area lt sub div im) (discreteVisitor fun b => SphereF.intersects binary64 b (toS binary64 q)) () = .ok l) :
    (l.map Prod.fst).Nodup ∧ ∀ k ∈ l.map Prod.fst, ∃ e : Nat × V, s.values[k]? = some e ∧ (q.center - (bs e.2).center).norm ≤ q.radius + (bs e.2).radius + 60 * ((2 : ℝ) ^ (-53 : ℤ) * M) :=
  c119_reported hb he (tree64 hlo (hhi.trans (zpow2_le (by norm_num)))) hM rq hq hl
/-- **C119 in `f32`**, for sizes from `2^-36` to `2^40` and heights up to 100. -/
theorem c119_f32_found {area : SphereF F32 → S} (hb : ∀ v, RpS binary32 (bs v)) (hm : ∀ v, Rep3 binary32 (ms v) ∧ 0 ≤ top3 (ms v)) {h : Hist V} {s : Dbvt V (SphereF F32)}
    (he : Exec (ballTreeOps binary32 (fun v => toS binary32 (bs v)) (fun v => toV3 binary32 (ms v)) area lt sub div im) h s)
    (hd : Disciplined (ballTreeOps binary32 (fun v => toS binary32 (bs v)) (fun v => toV3 binary32 (ms v)) area lt sub div im) h)
    (hu : UpToDate (ballTreeOps binary32 (fun v => toS binary32 (bs v)) (fun v => toV3 binary32 (ms v)) area lt sub div im) h) (hr : Refitted! h) {n : ℕ} (hh : s.height = .ok n) (hn : n ≤ 100)
    {M : ℝ} (hlo : (2 : ℝ) ^ (-36 : ℤ) ≤ M) (hhi : M ≤ (2 : ℝ) ^ (40 : ℤ)) (hM : ∀ v, Given h v → InS M M (bs v) ∧ top3 (ms v) ≤ M / 2)
    {q : RSphere} (rq : RpS binary32 q) (hq : InS M M q) {e : Nat × V} (hv : e ∈ s.values)
    (hov : (q.center - (bs e.2).center).norm + 2500 * (n * n * (2 : ℝ) ^ (-24 : ℤ) * M) ≤ q.radius + (bs e.2).radius) :
    ∃ l, s.query (ballTreeOps binary32 (fun v => toS binary32 (bs v)) (fun v => toV3 binary32 (ms v)) area lt sub div im) (discreteVisitor fun b => SphereF.intersects binary32 b (toS binary32 q)) () = .ok l ∧
      e.2 ∈ l.map Prod.fst := by
  obtain ⟨t1, t2⟩ := tree_size (height_ne_zero he hr hh hv) (by omega) hlo hhi
  refine c119_found hb hm he hd hu hr hh (by omega) (tree32 t1 (t2.trans (zpow2_le (by norm_num)))) ?_ hM rq hq hv hov
  have h1 : ((n : ℝ) * n) ≤ 100 * 100 := by
    have : (n : ℝ) ≤ 100 := by exact_mod_cast hn
    exact mul_le_mul this this (Nat.cast_nonneg n) (by norm_num)
  have h2 := mul_le_mul_of_nonneg_right h1 (zpow2_pos (-24)).le
  have h3 : (2 : ℝ) ^ (-24 : ℤ) = 1 / 16777216 := by norm_num
  rw [h3] at h2 ⊢
  linarith
/-- **C119 in `f32`.** Nothing is reported whose sphere is further away than 60 unit roundoffs of the scene, and nothing twice. -/
theorem c119_f32_reported {area : SphereF F32 → S} (hb : ∀ v, RpS binary32 (bs v)) {h : Hist V} {s : Dbvt V (SphereF F32)}
    (he : Exec (ballTreeOps binary32 (fun v => toS binary32 (bs v)) (fun v => toV3 binary32 (ms v)) area lt sub div im) h s) {M : ℝ} (hlo : (2 : ℝ) ^ (-36 : ℤ) ≤ M) (hhi : M ≤ (2 : ℝ) ^ (40 : ℤ))
    (hM : ∀ v, Given h v → InS M M (bs v)) {q : RSphere} (rq : RpS binary32 q) (hq : InS M M q) {l : List (Nat × Unit)}
    (hl : s.queryForIndices (ballTreeOps binary32 (fun v => toS binary32 (bs v)) (fun v => toV3 binary32 (ms v)) area lt sub div im) (discreteVisitor fun b => SphereF.intersects binary32 b (toS binary32 q)) () = .ok l) :
    (l.map Prod.fst).Nodup ∧ ∀ k ∈ l.map Prod.fst, ∃ e : Nat × V, s.values[k]? = some e ∧ (q.center - (bs e.2).center).norm ≤ q.radius + (bs e.2).radius + 60 * ((2 : ℝ) ^ (-24 : ℤ) * M) :=
  c119_reported hb he (tree32 hlo (hhi.trans (zpow2_le (by norm_num)))) hM rq hq hl
end tree

/-! ## Its hypotheses -/
/-- Two spheres of radius 1, at 0 and at 10 on the first axis. -/
def twoBalls (b : Bool) : RSphere := ⟨⟨if b then 10 else 0, 0, 0⟩, 1⟩
theorem rep32_int (m : ℤ) (hm : |m| < 2 ^ 24) : Rep binary32 (m : ℝ) := rep_of_rep32 ⟨m, 0, hm, by norm_num, by norm_num, by simp⟩
theorem twoBalls_rep (b : Bool) : RpS binary32 (twoBalls b) := by
  have h10 : Rep binary32 10 := by simpa using rep32_int 10 (by norm_num)
  cases b
  · exact ⟨⟨rep_zero, rep_zero, rep_zero⟩, rep_one⟩
  · exact ⟨⟨h10, rep_zero, rep_zero⟩, rep_one⟩
theorem twoBalls_size (b : Bool) : InS 10 10 (twoBalls b) := by
  cases b <;> simp [InS, twoBalls, Sz3]
/-- A reachable tree of two spheres in `f32` to which `c119_f32_found` applies: a query with the second sphere finds it. -/
example {S : Type} (area : SphereF F32 → S) (lt : S → S → Bool) (sub div : S → S → S) (im : S) :
    ∃ h s, Exec (ballTreeOps binary32 (fun v => toS binary32 (twoBalls v)) (fun _ => toV3 binary32 0) area lt sub div im) h s ∧
      ∃ l, s.query (ballTreeOps binary32 (fun v => toS binary32 (twoBalls v)) (fun _ => toV3 binary32 0) area lt sub div im) (discreteVisitor fun b => SphereF.intersects binary32 b (toS binary32 (twoBalls true))) () = .ok l ∧
        true ∈ l.map Prod.fst := by
  obtain ⟨h, hr⟩ := Dbvt.twoTree_run (ballTreeOps binary32 (fun v => toS binary32 (twoBalls v)) (fun _ => toV3 binary32 0) area lt sub div im) false true (fun _ => 0)
  obtain ⟨he, hd, hu, hf⟩ := Dbvt.run_inserts hr
  refine ⟨h, _, he, ?_⟩
  refine c119_f32_found (bs := twoBalls) (ms := fun _ => 0) (n := 2) (M := 10) (e := (3, true)) twoBalls_rep (fun _ => ⟨⟨rep_zero, rep_zero, rep_zero⟩, by simp [top3]⟩) he hd hu hf rfl (by norm_num) (by norm_num) (by norm_num)
    (fun v _ => ⟨twoBalls_size v, by norm_num [top3]⟩) (twoBalls_rep true) (twoBalls_size true) (by simp [Dbvt.twoTree]) ?_
  have : ((twoBalls true).center - (twoBalls true).center).norm = 0 := by
    rw [V3.norm_eq_zero]
    ext <;> simp
  rw [this]
  have h3 : (2 : ℝ) ^ (-24 : ℤ) = 1 / 16777216 := by norm_num
  rw [h3]
  norm_num [twoBalls]
end
end Verif.Scene
