import Verif.Scene.Round3
import Verif.Scene.Formats
/-!
# GJK and the pipelines in `f32` and `f64`, for all primitives (C117, C118)

C115 and C116 are about shapes with corners. Here also circles, spheres, capsules and cylinders, of which the support point needs a square root and a division.
-/
namespace Verif.Scene
open Verif Geom Primitive Minkowski BroadPhase Dbvt
open Verif.Dbvt (Rounding F64 binary64 Rep64)
open Verif.Dbvt.B32 (F32 binary32 Rep32)
set_option linter.unusedSectionVars false
noncomputable section
open Classical

/-- A floating-point format, coordinates of at most `M`; `τ` is about the square root of the smallest normal number. -/
structure FmtR {F : Type} [LinearOrder F] (R : Rounding F) (u η Ω τ M : ℝ) (eps tenth : Fl R) : Prop where
  std : RoundStd R u η Ω τ M
  eps1 : eps ≤ 1
  eps : 0 ≤ eps
  tenth : GoodTenth R tenth

variable {F : Type} [LinearOrder F] {R : Rounding F} {u η Ω τ M : ℝ} {eps tenth : Fl R}

theorem pow6 {m : ℕ} {e : ℤ} {k : ℕ} (hM : 1 ≤ M) (hM' : M ≤ 2 ^ m) (h : ((k + m * 6 : ℕ) : ℤ) ≤ e) : 2 ^ k * M ^ 6 ≤ (2 : ℝ) ^ e := by
  have h1 : M ^ 6 ≤ (2 ^ m) ^ 6 := pow_le_pow_left₀ (by linarith) hM' 6
  rw [← pow_mul] at h1
  have h2 : (2 : ℝ) ^ k * M ^ 6 ≤ 2 ^ k * 2 ^ (m * 6) := mul_le_mul_of_nonneg_left h1 (by positivity)
  rw [← pow_add] at h2
  refine h2.trans ?_
  rw [← zpow_natCast]
  exact zpow_le_zpow_right₀ (by norm_num) h
theorem pow3 {m : ℕ} {e : ℤ} {k : ℕ} (hM : 1 ≤ M) (hM' : M ≤ 2 ^ m) (h : ((k + m * 3 : ℕ) : ℤ) ≤ e) : 2 ^ k * M ^ 3 ≤ (2 : ℝ) ^ e := by
  have h1 : M ^ 3 ≤ (2 ^ m) ^ 3 := pow_le_pow_left₀ (by linarith) hM' 3
  rw [← pow_mul] at h1
  have h2 : (2 : ℝ) ^ k * M ^ 3 ≤ 2 ^ k * 2 ^ (m * 3) := mul_le_mul_of_nonneg_left h1 (by positivity)
  rw [← pow_add] at h2
  refine h2.trans ?_
  rw [← zpow_natCast]
  exact zpow_le_zpow_right₀ (by norm_num) h

theorem two_pow_le {a b : ℤ} (h : a ≤ b) : (2 : ℝ) ^ a ≤ (2 : ℝ) ^ b := zpow_le_zpow_right₀ (by norm_num) h

/-- `f32`, coordinates of at most `2^12`, directions of at least `2^-61`. -/
theorem fmtR32 (hM : 1 ≤ M) (hM' : M ≤ 2 ^ 12) : FmtR binary32 ((2 : ℝ) ^ (-24 : ℤ)) ((2 : ℝ) ^ (-150 : ℤ)) ((2 : ℝ) ^ (126 : ℤ)) ((2 : ℝ) ^ (-61 : ℤ)) M (toF binary32 eps32) (toF binary32 (1 / 10)) where
  std :=
    { std := std32
      u' := by norm_num
      τ0 := zpow_pos (by norm_num) _
      τ1 := zpow_le_one_of_nonpos₀ (by norm_num) (by norm_num)
      M1 := hM
      sq := by
        rw [show (16 : ℝ) = (2 : ℝ) ^ (4 : ℤ) by norm_num, ← zpow_add₀ (by norm_num), ← zpow_add₀ (by norm_num), ← zpow_add₀ (by norm_num)]
        exact two_pow_le (by norm_num)
      low := by
        have := mul_le_mul_of_nonneg_left (pow3 (e := 62) (k := 26) hM hM' (by norm_num)) (zpow_pos (by norm_num : (0 : ℝ) < 2) (-150)).le
        refine this.trans ?_
        rw [← zpow_add₀ (by norm_num)]
        exact two_pow_le (by norm_num)
      high := pow6 hM hM' (by norm_num)
      far := by
        have : 8 * M ≤ (2 : ℝ) ^ (15 : ℤ) := by norm_num; linarith
        refine this.trans ?_
        rw [← zpow_add₀ (by norm_num)]
        exact two_pow_le (by norm_num) }
  eps := fmt32.eps
  eps1 := by
    rw [← toF_one]
    exact toF_monotone (by unfold eps32; exact zpow_le_one_of_nonpos₀ (by norm_num) (by norm_num))
  tenth := fmt32.tenth
/-- `f64`, coordinates of at most `2^161`, directions of at least `2^-509`. -/
theorem fmtR64 (hM : 1 ≤ M) (hM' : M ≤ 2 ^ 161) : FmtR binary64 ((2 : ℝ) ^ (-53 : ℤ)) ((2 : ℝ) ^ (-1075 : ℤ)) ((2 : ℝ) ^ (1022 : ℤ)) ((2 : ℝ) ^ (-509 : ℤ)) M (toF binary64 eps64) (toF binary64 (1 / 10)) where
  std :=
    { std := std64
      u' := by norm_num
      τ0 := zpow_pos (by norm_num) _
      τ1 := zpow_le_one_of_nonpos₀ (by norm_num) (by norm_num)
      M1 := hM
      sq := by
        rw [show (16 : ℝ) = (2 : ℝ) ^ (4 : ℤ) by norm_num, ← zpow_add₀ (by norm_num), ← zpow_add₀ (by norm_num), ← zpow_add₀ (by norm_num)]
        exact two_pow_le (by norm_num)
      low := by
        have := mul_le_mul_of_nonneg_left (pow3 (e := 509) (k := 26) hM hM' (by norm_num)) (zpow_pos (by norm_num : (0 : ℝ) < 2) (-1075)).le
        refine this.trans ?_
        rw [← zpow_add₀ (by norm_num)]
        exact two_pow_le (by norm_num)
      high := pow6 hM hM' (by norm_num)
      far := by
        have h1 : 8 * M ≤ 2 ^ 3 * 2 ^ 161 := by linarith
        rw [← pow_add, ← zpow_natCast] at h1
        refine h1.trans ?_
        rw [← zpow_add₀ (by norm_num)]
        exact two_pow_le (by norm_num) }
  eps := fmt64.eps
  eps1 := by
    rw [← toF_one]
    exact toF_monotone (by unfold eps64; exact zpow_le_one_of_nonpos₀ (by norm_num) (by norm_num))
  tenth := fmt64.tenth

/-! ## Matrices that are rotations up to rounding -/

/-- Specification: every entry is within `1/64` of that of an orthogonal matrix. (A matrix of a `Basis2` or `Quaternion` in `f32` is much nearer.) -/
def NearTurn2 (m : M2 ℝ) : Prop := ∃ q : M2 ℝ, q.Orthogonal ∧ Sz (1 / 64) (m.c0 - q.c0) ∧ Sz (1 / 64) (m.c1 - q.c1)
def NearTurn3 (m : M3 ℝ) : Prop := ∃ q : M3 ℝ, q.Orthogonal ∧ Sz3 (1 / 64) (m.c0 - q.c0) ∧ Sz3 (1 / 64) (m.c1 - q.c1) ∧ Sz3 (1 / 64) (m.c2 - q.c2)

theorem turns2 {m : M2 ℝ} (h : NearTurn2 m) : Turns2 m := by
  obtain ⟨q, ho, h0, h1⟩ := h
  intro d
  have hs0 := size2_nonneg d
  have hs := sz_size d
  -- the exact turn keeps the length
  have hn : (q.transpose.apply d).dot (q.transpose.apply d) = d.dot d := by
    have h3 := M2.right_inv ho d
    have : (q.apply (q.transpose.apply d)).dot d = (q.transpose.apply d).dot (q.transpose.apply d) := by
      simp [M2.apply, M2.transpose, V2.dot]; ring
    rw [← this, h3]
  have hd : size2 d * size2 d ≤ d.dot d := by
    unfold size2
    simp only [V2.dot]
    rcases max_cases |d.x| |d.y| with h | h
    · rw [h.1, abs_mul_abs_self]; nlinarith [mul_self_nonneg d.y]
    · rw [h.1, abs_mul_abs_self]; nlinarith [mul_self_nonneg d.x]
  have hq := sz_size (q.transpose.apply d)
  have hq0 := size2_nonneg (q.transpose.apply d)
  have hd2 : (q.transpose.apply d).dot (q.transpose.apply d) ≤ 2 * (size2 (q.transpose.apply d) * size2 (q.transpose.apply d)) := by
    have a1 := mul_self_le_mul_self (abs_nonneg _) hq.1
    have a2 := mul_self_le_mul_self (abs_nonneg _) hq.2
    rw [abs_mul_abs_self] at a1 a2
    simp only [V2.dot]
    linarith
  have hlow : 5 / 8 * size2 d ≤ size2 (q.transpose.apply d) := by
    by_contra hc
    push Not at hc
    have := mul_self_lt_mul_self hq0 hc
    nlinarith
  have hdiff : Sz (1 / 32 * size2 d) (m.transpose.apply d - q.transpose.apply d) := by
    have e : m.transpose.apply d - q.transpose.apply d = ⟨(m.c0 - q.c0).dot d, (m.c1 - q.c1).dot d⟩ := by
      ext <;> simp [M2.apply, M2.transpose, V2.dot] <;> ring
    rw [e]
    have b0 := dot_abs_le h0 hs
    have b1 := dot_abs_le h1 hs
    exact ⟨b0.trans (by linarith), b1.trans (by linarith)⟩
  have := size_sub _ _ hdiff
  linarith

theorem size3_sq (d : V3 ℝ) : size3 d * size3 d ≤ d.dot d := by
  have hx := mul_self_nonneg d.x
  have hy := mul_self_nonneg d.y
  have hz := mul_self_nonneg d.z
  have hn : 0 ≤ d.dot d := by simp only [V3.dot]; linarith
  have h : size3 d ≤ Real.sqrt (d.dot d) := size3_le ⟨Real.abs_le_sqrt (by simp only [V3.dot]; nlinarith), Real.abs_le_sqrt (by simp only [V3.dot]; nlinarith), Real.abs_le_sqrt (by simp only [V3.dot]; nlinarith)⟩
  have := mul_self_le_mul_self (size3_nonneg d) h
  rwa [Real.mul_self_sqrt hn] at this

theorem turns3 {m : M3 ℝ} (h : NearTurn3 m) : Turns3 m := by
  obtain ⟨q, ho, h0, h1, h2⟩ := h
  intro d
  have hs0 := size3_nonneg d
  have hs := sz_size3 d
  have hn : (q.transpose.apply d).dot (q.transpose.apply d) = d.dot d := by
    have h3 := ho.2 d
    have : (q.apply (q.transpose.apply d)).dot d = (q.transpose.apply d).dot (q.transpose.apply d) := by
      simp [M3.apply, M3.transpose, V3.dot]; ring
    rw [← this, h3]
  have hd := size3_sq d
  have hq := sz_size3 (q.transpose.apply d)
  have hq0 := size3_nonneg (q.transpose.apply d)
  have hd2 : (q.transpose.apply d).dot (q.transpose.apply d) ≤ 3 * (size3 (q.transpose.apply d) * size3 (q.transpose.apply d)) := by
    have a1 := mul_self_le_mul_self (abs_nonneg _) hq.1
    have a2 := mul_self_le_mul_self (abs_nonneg _) hq.2.1
    have a3 := mul_self_le_mul_self (abs_nonneg _) hq.2.2
    rw [abs_mul_abs_self] at a1 a2 a3
    simp only [V3.dot]
    linarith
  have hlow : 9 / 16 * size3 d ≤ size3 (q.transpose.apply d) := by
    by_contra hc
    push Not at hc
    have := mul_self_lt_mul_self hq0 hc
    nlinarith
  have hdiff : Sz3 (3 / 64 * size3 d) (m.transpose.apply d - q.transpose.apply d) := by
    have e : m.transpose.apply d - q.transpose.apply d = ⟨(m.c0 - q.c0).dot d, (m.c1 - q.c1).dot d, (m.c2 - q.c2).dot d⟩ := by
      ext <;> simp [M3.apply, M3.transpose, V3.dot] <;> ring
    rw [e]
    have b0 := dot3_abs_le h0 hs
    have b1 := dot3_abs_le h1 hs
    have b2 := dot3_abs_le h2 hs
    exact ⟨b0.trans (by linarith), b1.trans (by linarith), b2.trans (by linarith)⟩
  have := size3_sub _ _ hdiff
  linarith

/-! ## Items -/

/-- A 2D primitive. -/
inductive Any2 where
  | flat (s : Flat2 ℝ)
  | circle (radius : ℝ)
/-- A 3D primitive; polyhedra are those made without faces. -/
inductive Any3 where
  | box (s : Minkowski.Box3 ℝ)
  | sphere (radius : ℝ)
  | capsule (halfHeight radius : ℝ)
  | cylinder (halfHeight radius : ℝ)
/-- The primitive of the exact model. -/
def Any2.prim : Any2 → Prim2
  | .flat s => s.prim
  | .circle r => .circle ⟨r⟩
def Any3.prim : Any3 → Prim3
  | .box s => s.prim
  | .sphere r => .sphere ⟨r⟩
  | .capsule h r => .capsule ⟨h, r⟩
  | .cylinder h r => .cylinder ⟨h, r⟩

/-- A primitive and its placement: the coordinates and radii are numbers of the format, coordinates and diameters are at most `M`; no scaling; for a circle the matrix is a rotation up to `1/64`. -/
structure OkA2 (R : Rounding F) (M : ℝ) (a : Any2 × Dec2 ℝ) : Prop where
  shape : match a.1 with
    | .flat s => s.Fits R M
    | .circle r => 0 ≤ r ∧ Rep R r ∧ 2 * r ≤ M ∧ NearTurn2 a.2.rot
  place : Fits2 R M a.2
structure OkA3 (R : Rounding F) (M : ℝ) (a : Any3 × Dec3 ℝ) : Prop where
  shape : match a.1 with
    | .box s => FitsS R M s
    | .sphere r => 0 ≤ r ∧ Rep R r ∧ 2 * r ≤ M ∧ NearTurn3 a.2.rot
    | .capsule h r => (0 ≤ h ∧ 0 ≤ r) ∧ (Rep R h ∧ Rep R r) ∧ 2 * (h + r) ≤ M ∧ NearTurn3 a.2.rot
    | .cylinder h r => (0 ≤ h ∧ 0 ≤ r) ∧ (Rep R h ∧ Rep R r) ∧ 2 * h ≤ M ∧ 2 * r ≤ M
  place : Fits3 R M a.2
/-- The points of an item. -/
def atA2 (a : Any2 × Dec2 ℝ) : V2 ℝ → Prop := Image a.2.tr a.1.prim.Points
def atA3 (a : Any3 × Dec3 ℝ) : V3 ℝ → Prop := Image a.2.tr a.1.prim.Points

variable (R) in
/-- `support_point` in the format: `src/primitive/primitive2.rs:92-104` -/
def supportA2 (a : Any2 × Dec2 ℝ) : V2 (Fl R) → Res (V2 (Fl R)) :=
  match a.1 with
  | .flat s => (s.toFl R).supportG (decF R a.2)
  | .circle r => circleF R (toF R r) (decF R a.2)
variable (R) in
/-- `support_point` in the format: `src/primitive/primitive3.rs:160-176`; `nz a d` tells whether the `y` component of the direction `d`, turned into the frame of `a`, is `-0` when it is zero -/
def supportA3 (nz : Any3 × Dec3 ℝ → V3 (Fl R) → Bool) (a : Any3 × Dec3 ℝ) : V3 (Fl R) → Res (V3 (Fl R)) :=
  match a.1 with
  | .box s => (s.toFl R).supportG (decF3 R a.2)
  | .sphere r => sphereF R (toF R r) (decF3 R a.2)
  | .capsule h r => capsuleF R (toF R h) (toF R r) (nz a) (decF3 R a.2)
  | .cylinder h r => cylinderF R (toF R h) (toF R r) (nz a) (decF3 R a.2)
/-- `GJK2::intersect` in the format, with at most `n` iterations. -/
def gjkA2 (eps : Fl R) (n : Nat) (a b : Any2 × Dec2 ℝ) : Res (Out (V2 (Fl R))) := gjkRunG2 eps n (supportA2 R a) (supportA2 R b) (pointG2 (decF R a.2) 0) (pointG2 (decF R b.2) 0)
/-- `GJK3::intersect` in the format, with at most `n` iterations. -/
def gjkA3 (eps tenth : Fl R) (nz : Any3 × Dec3 ℝ → V3 (Fl R) → Bool) (n : Nat) (a b : Any3 × Dec3 ℝ) : Res (Out (V3 (Fl R))) :=
  gjkRunG3 eps tenth n (supportA3 R nz a) (supportA3 R nz b) (pointG3 (decF3 R a.2) 0) (pointG3 (decF3 R b.2) 0)

/-- Specification: a direction in which rounding spoils the support point: all components are smaller than `τ`. -/
def Spoils2 (R : Rounding F) (τ : ℝ) (d : V2 (Fl R)) : Prop := Tiny2 R τ d
/-- Specification, 3D: all components are smaller than `τ`; or the solid is a cylinder and, in its frame, both components across the axis are smaller than `τ` and not both zero. -/
def Spoils3 (R : Rounding F) (τ : ℝ) (a : Any3 × Dec3 ℝ) (d : V3 (Fl R)) : Prop :=
  match a.1 with
  | .cylinder _ _ => TinyAcross R τ (decF3 R a.2) d
  | _ => Tiny3 R τ d
/-- Specification: the run asks for a support point in such a direction. -/
def AskedSpoil2 (τ : ℝ) (eps : Fl R) (n : Nat) (a b : Any2 × Dec2 ℝ) : Prop :=
  gjkRunG2 eps n (refusing (Spoils2 R τ) (supportA2 R a)) (refusing (Spoils2 R τ) (supportA2 R b)) (pointG2 (decF R a.2) 0) (pointG2 (decF R b.2) 0) = .panic
def AskedSpoil3 (τ : ℝ) (eps tenth : Fl R) (nz : Any3 × Dec3 ℝ → V3 (Fl R) → Bool) (n : Nat) (a b : Any3 × Dec3 ℝ) : Prop :=
  gjkRunG3 eps tenth n (refusing (Spoils3 R τ a) (supportA3 R nz a)) (refusing (Spoils3 R τ b) (supportA3 R nz b)) (pointG3 (decF3 R a.2) 0) (pointG3 (decF3 R b.2) 0) = .panic

theorem any2_near (h : RoundStd R u η Ω τ M) {a : Any2 × Dec2 ℝ} (ha : OkA2 R M a) {N : ℝ} (hN : N ≤ 2 ^ 22 * M ^ 3) : Near2 R u M N (Spoils2 R τ) (supportA2 R a) (atA2 a) := by
  obtain ⟨s, D⟩ := a
  obtain ⟨hs, hD⟩ := ha
  cases s with
  | flat s => exact flat_guarded h hs hD hN
  | circle r =>
    obtain ⟨h1, h2, h3, h4⟩ := hs
    exact circle_guarded h h1 h2 h3 hD (turns2 h4) hN
theorem any3_near (h : RoundStd R u η Ω τ M) (nz : Any3 × Dec3 ℝ → V3 (Fl R) → Bool) {a : Any3 × Dec3 ℝ} (ha : OkA3 R M a) {N : ℝ} (hN : N ≤ 2 ^ 22 * M ^ 3) :
    Near3S R u M N (Spoils3 R τ a) (supportA3 R nz a) (atA3 a) := by
  obtain ⟨s, D⟩ := a
  obtain ⟨hs, hD⟩ := ha
  cases s with
  | box s => exact box_guarded h hs hD hN
  | sphere r =>
    obtain ⟨h1, h2, h3, h4⟩ := hs
    exact sphere_guarded h h1 h2 h3 hD (turns3 h4) hN
  | capsule k r =>
    obtain ⟨⟨h1, h2⟩, ⟨h3, h4⟩, h5, h6⟩ := hs
    exact capsule_guarded h h1 h2 h3 h4 h5 (nz (.capsule k r, D)) hD (turns3 h6) hN
  | cylinder k r =>
    obtain ⟨⟨h1, h2⟩, ⟨h3, h4⟩, h5, h6⟩ := hs
    exact cylinder_guarded h h1 h2 h3 h4 h5 h6 (nz (.cylinder k r, D)) hD hN

theorem tiny_spoils3 {a : Any3 × Dec3 ℝ} {d : V3 (Fl R)} (hd : Tiny3 R τ d) : Spoils3 R τ a d := by
  obtain ⟨s, D⟩ := a
  cases s with
  | box s => exact hd
  | sphere r => exact hd
  | capsule k r => exact hd
  | cylinder k r => exact Or.inl hd

/-- **C117 in a format, 2D.** -/
theorem c117_fmt2 (f : FmtR R u η Ω τ M eps tenth) {a b : Any2 × Dec2 ℝ} (ha : OkA2 R M a) (hb : OkA2 R M b) (n : Nat) :
    AskedSpoil2 τ eps n a b ∨ ∃ o, gjkA2 eps n a b = .ok o ∧ (o = .miss → NearlySeparated (1024 * (u * M)) (atA2 a) (atA2 b)) ∧
      (∀ x, o = .hit x → x.length = 3 ∧ ∀ p ∈ x, NearPoint R (108 * (u * M)) (atA2 a) (atA2 b) p) := by
  have hM := f.std.M1
  have hN : 9 * (24 * M) ^ 3 ≤ 2 ^ 22 * M ^ 3 := by
    have := one_le_pow₀ hM (n := 3)
    rw [mul_pow]
    linarith
  have z : Sz M (0 : V2 ℝ) := ⟨by simpa using (by linarith : 0 ≤ M), by simpa using (by linarith : 0 ≤ M)⟩
  have hΩ : 4 * M ≤ Ω := by
    have := f.std.m3
    have := f.std.big4
    linarith
  obtain ⟨p, rp, sp, ep, -⟩ := point_near f.std.std ha.place hM (v := 0) ⟨rep_zero, rep_zero⟩ z hΩ
  obtain ⟨q, rq, sq, eq, -⟩ := point_near f.std.std hb.place hM (v := 0) ⟨rep_zero, rep_zero⟩ z hΩ
  rw [toV2_zero] at ep eq
  unfold AskedSpoil2 gjkA2
  rw [ep, eq]
  rcases run_guarded2 f.std f.eps (BL := Spoils2 R τ) (BR := Spoils2 R τ) (fun d h => h) (any2_near f.std ha hN) (any2_near f.std hb hN) rp rq sp sq n with h | ⟨o, -, h2, h3, h4⟩
  · exact Or.inl h
  · exact Or.inr ⟨o, h2, h3, h4⟩

/-- **C117 in a format, 3D.** -/
theorem c117_fmt3 (f : FmtR R u η Ω τ M eps tenth) (nz : Any3 × Dec3 ℝ → V3 (Fl R) → Bool) {a b : Any3 × Dec3 ℝ} (ha : OkA3 R M a) (hb : OkA3 R M b) (n : Nat) :
    AskedSpoil3 τ eps tenth nz n a b ∨ ∃ o, gjkA3 eps tenth nz n a b = .ok o ∧ (o = .miss → NearlySeparated3 (2048 * (u * M)) (atA3 a) (atA3 b)) ∧
      (∀ x, o = .hit x → x.length = 4 ∧ ∀ p ∈ x, NearPoint3 R (176 * (u * M)) (atA3 a) (atA3 b) p) := by
  have hM := f.std.M1
  have z : Sz3 M (0 : V3 ℝ) := ⟨by simpa using (by linarith : 0 ≤ M), by simpa using (by linarith : 0 ≤ M), by simpa using (by linarith : 0 ≤ M)⟩
  have hΩ : 5 * M ≤ Ω := by
    have := f.std.m3
    have := f.std.big4
    linarith
  obtain ⟨p, rp, sp, ep, -⟩ := point3_near f.std.std ha.place hM (v := 0) ⟨rep_zero, rep_zero, rep_zero⟩ z hΩ
  obtain ⟨q, rq, sq, eq, -⟩ := point3_near f.std.std hb.place hM (v := 0) ⟨rep_zero, rep_zero, rep_zero⟩ z hΩ
  rw [toV3_zero] at ep eq
  rcases run_guarded3 f.std (eps := eps) f.tenth (fun d => tiny_spoils3) (any3_near f.std nz ha le_rfl) (any3_near f.std nz hb le_rfl) ⟨p, ep, rp, sp⟩ ⟨q, eq, rq, sq⟩ n with h | ⟨o, -, h2, h3, h4⟩
  · exact Or.inl h
  · exact Or.inr ⟨o, h2, h3, h4⟩

/-- **C117, `f32`, 2D**: two 2D primitives (polygons of at most nine vertices), circles too, with transforms without scaling; all coordinates are numbers of `f32` of at most `M ≤ 4096`. GJK in `f32` does not panic, and
when it ends with a miss then in some direction the shapes overlap by at most `1024 * 2^-24 * M`; a hit is three points, each within `108 * 2^-24 * M` of a difference of points of the shapes. All this unless the run
asks for a support point in a direction with all components smaller than `2^-61`. -/
theorem c117_f32_2d (hM : 1 ≤ M) (hM' : M ≤ 2 ^ 12) {a b : Any2 × Dec2 ℝ} (ha : OkA2 binary32 M a) (hb : OkA2 binary32 M b) (n : Nat) :
    AskedSpoil2 ((2 : ℝ) ^ (-61 : ℤ)) (toF binary32 eps32) n a b ∨ ∃ o, gjkA2 (toF binary32 eps32) n a b = .ok o ∧ (o = .miss → NearlySeparated (1024 * ((2 : ℝ) ^ (-24 : ℤ) * M)) (atA2 a) (atA2 b)) ∧
      (∀ x, o = .hit x → x.length = 3 ∧ ∀ p ∈ x, NearPoint binary32 (108 * ((2 : ℝ) ^ (-24 : ℤ) * M)) (atA2 a) (atA2 b) p) := c117_fmt2 (fmtR32 hM hM') ha hb n
/-- **C117, `f64`, 2D**: coordinates of at most `M ≤ 2^161`, directions of at least `2^-509`. -/
theorem c117_f64_2d (hM : 1 ≤ M) (hM' : M ≤ 2 ^ 161) {a b : Any2 × Dec2 ℝ} (ha : OkA2 binary64 M a) (hb : OkA2 binary64 M b) (n : Nat) :
    AskedSpoil2 ((2 : ℝ) ^ (-509 : ℤ)) (toF binary64 eps64) n a b ∨ ∃ o, gjkA2 (toF binary64 eps64) n a b = .ok o ∧ (o = .miss → NearlySeparated (1024 * ((2 : ℝ) ^ (-53 : ℤ) * M)) (atA2 a) (atA2 b)) ∧
      (∀ x, o = .hit x → x.length = 3 ∧ ∀ p ∈ x, NearPoint binary64 (108 * ((2 : ℝ) ^ (-53 : ℤ) * M)) (atA2 a) (atA2 b) p) := c117_fmt2 (fmtR64 hM hM') ha hb n
/-- **C117, `f32`, 3D**: two 3D primitives (polyhedra without faces), with spheres, capsules and cylinders, and any signs of zero. -/
theorem c117_f32_3d (hM : 1 ≤ M) (hM' : M ≤ 2 ^ 12) (nz : Any3 × Dec3 ℝ → V3 (Fl binary32) → Bool) {a b : Any3 × Dec3 ℝ} (ha : OkA3 binary32 M a) (hb : OkA3 binary32 M b) (n : Nat) :
    AskedSpoil3 ((2 : ℝ) ^ (-61 : ℤ)) (toF binary32 eps32) (toF binary32 (1 / 10)) nz n a b ∨ ∃ o, gjkA3 (toF binary32 eps32) (toF binary32 (1 / 10)) nz n a b = .ok o ∧
      (o = .miss → NearlySeparated3 (2048 * ((2 : ℝ) ^ (-24 : ℤ) * M)) (atA3 a) (atA3 b)) ∧ (∀ x, o = .hit x → x.length = 4 ∧ ∀ p ∈ x, NearPoint3 binary32 (176 * ((2 : ℝ) ^ (-24 : ℤ) * M)) (atA3 a) (atA3 b) p) :=
  c117_fmt3 (fmtR32 hM hM') nz ha hb n
/-- **C117, `f64`, 3D.** -/
theorem c117_f64_3d (hM : 1 ≤ M) (hM' : M ≤ 2 ^ 161) (nz : Any3 × Dec3 ℝ → V3 (Fl binary64) → Bool) {a b : Any3 × Dec3 ℝ} (ha : OkA3 binary64 M a) (hb : OkA3 binary64 M b) (n : Nat) :
    AskedSpoil3 ((2 : ℝ) ^ (-509 : ℤ)) (toF binary64 eps64) (toF binary64 (1 / 10)) nz n a b ∨ ∃ o, gjkA3 (toF binary64 eps64) (toF binary64 (1 / 10)) nz n a b = .ok o ∧
      (o = .miss → NearlySeparated3 (2048 * ((2 : ℝ) ^ (-53 : ℤ) * M)) (atA3 a) (atA3 b)) ∧ (∀ x, o = .hit x → x.length = 4 ∧ ∀ p ∈ x, NearPoint3 binary64 (176 * ((2 : ℝ) ^ (-53 : ℤ) * M)) (atA3 a) (atA3 b) p) :=
  c117_fmt3 (fmtR64 hM hM') nz ha hb n

/-- The position of an item is exact. -/
theorem position2 {D : Dec2 ℝ} (hD : Fits2 R M D) : pointG2 (decF R D) 0 = toV2 R D.disp := by
  have m0 : ∀ {x : ℝ}, Rep R x → toF R x * (0 : Fl R) = 0 := fun {x} hx => by rw [← toF_zero, toF_mul hx rep_zero, mul_zero]
  have s0 : (0 : Fl R) * toF R D.scale = 0 := by rw [hD.scale, ← toF_zero, toF_mul rep_zero rep_one, zero_mul]
  have a0 : (0 : Fl R) + 0 = 0 := by rw [← toF_zero, toF_add rep_zero rep_zero, add_zero]
  have ad : ∀ {x : ℝ}, Rep R x → (0 : Fl R) + toF R x = toF R x := fun {x} hx => by rw [← toF_zero, toF_add rep_zero hx, zero_add]
  ext
  · show toF R D.rot.c0.x * ((0 : Fl R) * toF R D.scale) + toF R D.rot.c1.x * ((0 : Fl R) * toF R D.scale) + toF R D.disp.x = toF R D.disp.x
    rw [s0, m0 hD.r0.1, m0 hD.r1.1, a0, ad hD.rd.1]
  · show toF R D.rot.c0.y * ((0 : Fl R) * toF R D.scale) + toF R D.rot.c1.y * ((0 : Fl R) * toF R D.scale) + toF R D.disp.y = toF R D.disp.y
    rw [s0, m0 hD.r0.2, m0 hD.r1.2, a0, ad hD.rd.2]

/-- The position of an item is exact. -/
theorem position3 {D : Dec3 ℝ} (hD : Fits3 R M D) : pointG3 (decF3 R D) 0 = toV3 R D.disp := by
  have m0 : ∀ {x : ℝ}, Rep R x → toF R x * (0 : Fl R) = 0 := fun {x} hx => by rw [← toF_zero, toF_mul hx rep_zero, mul_zero]
  have s0 : (0 : Fl R) * toF R D.scale = 0 := by rw [hD.scale, ← toF_zero, toF_mul rep_zero rep_one, zero_mul]
  have a0 : (0 : Fl R) + 0 = 0 := by rw [← toF_zero, toF_add rep_zero rep_zero, add_zero]
  have ad : ∀ {x : ℝ}, Rep R x → (0 : Fl R) + toF R x = toF R x := fun {x} hx => by rw [← toF_zero, toF_add rep_zero hx, zero_add]
  ext
  · show toF R D.rot.c0.x * ((0 : Fl R) * toF R D.scale) + toF R D.rot.c1.x * ((0 : Fl R) * toF R D.scale) + toF R D.rot.c2.x * ((0 : Fl R) * toF R D.scale) + toF R D.disp.x = toF R D.disp.x
    rw [s0, m0 hD.rot.r0.1, m0 hD.rot.r1.1, m0 hD.rot.r2.1, a0, a0, ad hD.rd.1]
  · show toF R D.rot.c0.y * ((0 : Fl R) * toF R D.scale) + toF R D.rot.c1.y * ((0 : Fl R) * toF R D.scale) + toF R D.rot.c2.y * ((0 : Fl R) * toF R D.scale) + toF R D.disp.y = toF R D.disp.y
    rw [s0, m0 hD.rot.r0.2.1, m0 hD.rot.r1.2.1, m0 hD.rot.r2.2.1, a0, a0, ad hD.rd.2.1]
  · show toF R D.rot.c0.z * ((0 : Fl R) * toF R D.scale) + toF R D.rot.c1.z * ((0 : Fl R) * toF R D.scale) + toF R D.rot.c2.z * ((0 : Fl R) * toF R D.scale) + toF R D.disp.z = toF R D.disp.z
    rw [s0, m0 hD.rot.r0.2.2, m0 hD.rot.r1.2.2, m0 hD.rot.r2.2.2, a0, a0, ad hD.rd.2.2]

set_option maxHeartbeats 1000000 in
/-- **C117, items clearly apart, 2D**: when the positions differ by at least 2 along an axis and every point of the first item is behind every point of the second, by more than rounding, along the line from position to
position, then GJK in the format answers with a miss, for every bound on the iterations; and it asks for no support point that rounding could spoil. -/
theorem c117_apart2 (f : FmtR R u η Ω τ M eps tenth) {a b : Any2 × Dec2 ℝ} (ha : OkA2 R M a) (hb : OkA2 R M b) (n : Nat) (far : 2 ≤ size2 (b.2.disp - a.2.disp))
    (apart : ∀ x y, atA2 a x → atA2 b y → (x - y).dot (b.2.disp - a.2.disp) ≤ -(512 * (u * M) * size2 (b.2.disp - a.2.disp))) :
    ¬ AskedSpoil2 τ eps n a b ∧ gjkA2 eps n a b = .ok .miss := by
  have h := f.std
  have hs := h.std
  have hM := h.M1
  have hu := hs.u0
  have hu' := h.u'
  have hη := hs.η0
  obtain ⟨m3, m4, m6, m1⟩ := h.m3
  have hΩ4 := h.big4
  obtain ⟨s1, s2⟩ := h.small
  have uM : u * 1 ≤ u * M := mul_le_mul_of_nonneg_left hM hu
  have uM' : u * M ≤ 1 / 1024 * M := mul_le_mul_of_nonneg_right hu' (by linarith)
  generalize he : b.2.disp - a.2.disp = e at far apart
  have hes : Sz (2 * M) e := by
    rw [← he]
    have h1 := ha.place.sd
    have h2 := hb.place.sd
    exact ⟨(abs_sub _ _).trans (by linarith [h1.1, h2.1]), (abs_sub _ _).trans (by linarith [h1.2, h2.2])⟩
  have hse := sz_size e
  have heM : size2 e ≤ 2 * M := size_le hes
  -- the first direction
  have k : ∀ {p q : ℝ}, Rep R p → Rep R q → |q - p| ≤ size2 e → ∃ c, Rep R c ∧ toF R q - toF R p = toF R c ∧ |c - (q - p)| ≤ 2 * (u * size2 e) := by
    intro p q rp rq hpq
    obtain ⟨c, rc, ec, dc⟩ := hs.err (q - p) (by linarith)
    refine ⟨c, rc, by rw [toF_sub rq rp, ec], ?_⟩
    have h1 : u * |q - p| ≤ u * size2 e := mul_le_mul_of_nonneg_left hpq hu
    have h2 : u * 2 ≤ u * size2 e := mul_le_mul_of_nonneg_left far hu
    linarith
  have hx : |b.2.disp.x - a.2.disp.x| ≤ size2 e := by
    have := hse.1
    rwa [← he] at this ⊢
  have hy : |b.2.disp.y - a.2.disp.y| ≤ size2 e := by
    have := hse.2
    rwa [← he] at this ⊢
  obtain ⟨cx, rcx, ecx, dcx⟩ := k ha.place.rd.1 hb.place.rd.1 hx
  obtain ⟨cy, rcy, ecy, dcy⟩ := k ha.place.rd.2 hb.place.rd.2 hy
  have hd : pointG2 (decF R b.2) 0 - pointG2 (decF R a.2) 0 = toV2 R ⟨cx, cy⟩ := by
    rw [position2 ha.place, position2 hb.place]
    ext
    · exact ecx
    · exact ecy
  have dd : Sz (2 * (u * size2 e)) ((⟨cx, cy⟩ : V2 ℝ) - e) := by
    rw [← he] at dcx dcy ⊢
    exact ⟨dcx, dcy⟩
  have ue : u * size2 e ≤ 1 / 1024 * size2 e := mul_le_mul_of_nonneg_right hu' (by linarith)
  have rd : Rp R (⟨cx, cy⟩ : V2 ℝ) := ⟨rcx, rcy⟩
  have sd : Sz (33 / 32 * size2 e) (⟨cx, cy⟩ : V2 ℝ) := (sz_sub dd hse).mono (by linarith)
  have big := size_sub _ _ dd
  have big' : 3 / 2 ≤ size2 (⟨cx, cy⟩ : V2 ℝ) := by linarith
  have first : firstDirectionG2 eps (pointG2 (decF R a.2) 0) (pointG2 (decF R b.2) 0) = toV2 R ⟨cx, cy⟩ := by
    unfold firstDirectionG2
    dsimp only
    rw [hd, if_neg]
    rintro ⟨⟨n1, n2⟩, n3, n4⟩
    have q : ∀ {x : ℝ}, Rep R x → |x| ≤ Ω → toF R x ≤ eps → -toF R x ≤ eps → |x| ≤ 1 := by
      intro x rx hx h1 h2
      have g1 := h1.trans f.eps1
      have g2 := h2.trans f.eps1
      rw [toF_neg rx, ← toF_one] at g2
      rw [← toF_one] at g1
      have := (toF_le rx rep_one).1 g1
      have := (toF_le (hs.rep_neg hx rx) rep_one).1 g2
      exact abs_le.2 ⟨by linarith, by linarith⟩
    have h1 := q rcx (sd.1.trans (by linarith)) n1 n2
    have h2 := q rcy (sd.2.trans (by linarith)) n3 n4
    have : size2 (⟨cx, cy⟩ : V2 ℝ) ≤ 1 := size_le ⟨h1, h2⟩
    linarith
  have hN : 33 / 32 * size2 e ≤ 2 ^ 22 * M ^ 3 := by linarith
  have nt : ∀ {d : V2 ℝ}, Rp R d → size2 d = size2 (⟨cx, cy⟩ : V2 ℝ) → ¬ Spoils2 R τ (toV2 R d) := by
    rintro d rd' hd' ⟨t1, t2⟩
    have : size2 d ≤ τ := size_le ⟨((tiny_iff rd'.1).1 t1).le, ((tiny_iff rd'.2).1 t2).le⟩
    linarith [h.τ1]
  have rn := rd.neg hs sd (by linarith)
  obtain ⟨w, -, -, ew, -⟩ := any2_near h ha hN _ rd sd (nt rd rfl)
  obtain ⟨w2, -, -, ew2, -⟩ := any2_near h hb hN _ rn sd.neg (nt rn (size2_neg _))
  rcases mink_guarded h (BL := Spoils2 R τ) (BR := Spoils2 R τ) (fun d h => h) (any2_near h ha hN) (any2_near h hb hN) hN rd sd with e0 | ⟨v, v', e1, e2, va, ra, sa, na, -⟩
  · exfalso
    unfold SP.fromMinkowski refusing at e0
    rw [if_neg (nt rd rfl), ew, Res.bind_ok, show -toV2 R (⟨cx, cy⟩ : V2 ℝ) = toV2 R (-⟨cx, cy⟩) from toV2_neg rd, if_neg (nt rn (size2_neg _)), ew2] at e0
    cases e0
  · have miss : v.v.dot (toV2 R ⟨cx, cy⟩) ≤ 0 := by
      obtain ⟨x, y, z, p, q, hp, hq, rfl, rxx, nv, -⟩ := na
      have vx : v' = x := by
        have hh : toV2 R x = toV2 R v' := va
        have h1 := congrArg V2.x hh
        have h2 := congrArg V2.y hh
        ext
        · exact ((toF_inj rxx.1.1 ra.1).1 h1).symm
        · exact ((toF_inj rxx.1.2 ra.2).1 h2).symm
      rw [va]
      have hMe : M * size2 e ≤ 2 * M ^ 4 := by
        have h1 : M * size2 e ≤ M * (2 * M) := mul_le_mul_of_nonneg_left heM (by linarith)
        have h2 : M ^ 2 ≤ M ^ 4 := pow_le_pow_right₀ hM (by norm_num)
        have h3 : M * (2 * M) = 2 * M ^ 2 := by ring
        linarith
      have m41 : 1 ≤ M ^ 4 := one_le_pow₀ hM
      obtain ⟨r, rr, er, dr⟩ := dot_err hs ra rd sa sd (by
        have : 11 * M * (33 / 32 * size2 e) = 363 / 32 * (M * size2 e) := by ring
        linarith)
      rw [er, ← toF_zero]
      refine (toF_le rr rep_zero).2 ?_
      rw [← vx] at nv
      have b1 := dot_sub_le nv hse
      have b2 := dot_sub_le dd sa
      have b3 := apart p q hp hq
      have comm : ∀ a b : V2 ℝ, a.dot b = b.dot a := fun a b => by simp [V2.dot]; ring
      rw [comm _ v', comm e v'] at b2
      rw [abs_le] at b1 b2 dr
      have q0 : 0 ≤ u * M * size2 e := mul_nonneg (mul_nonneg hu (by linarith)) (by linarith)
      have g1 : u * (11 * M * (33 / 32 * size2 e)) = 363 / 32 * (u * M * size2 e) := by ring
      have g2 : 2 * (u * size2 e) * (11 * M) = 22 * (u * M * size2 e) := by ring
      have g3 : 108 * (u * M) * size2 e = 108 * (u * M * size2 e) := by ring
      have g4 : 512 * (u * M) * size2 e = 512 * (u * M * size2 e) := by ring
      have g5 : u * M * 2 ≤ u * M * size2 e := mul_le_mul_of_nonneg_left far (mul_nonneg hu (by linarith))
      rw [g1] at dr
      rw [g2] at b2
      rw [g3] at b1
      rw [g4] at b3
      linarith
    constructor
    · unfold AskedSpoil2
      rw [gjkRunG2_from, first]
      unfold runFrom
      rw [e1, Res.bind_ok]
      show ¬ (if v.v.dot (toV2 R ⟨cx, cy⟩) ≤ 0 then _ else _) = _
      rw [if_pos miss]
      intro hh
      cases hh
    · unfold gjkA2
      rw [gjkRunG2_from, first]
      unfold runFrom
      rw [e2, Res.bind_ok]
      show (if v.v.dot (toV2 R ⟨cx, cy⟩) ≤ 0 then _ else _) = _
      rw [if_pos miss]
      rfl
set_option maxHeartbeats 1000000 in
/-- **C117, items clearly apart, 3D**, neither a cylinder: when the positions differ by at least 2 along an axis and every point of the first item is behind every point of the second, by more than rounding, along the line from position to
position, then GJK in the format answers with a miss, for every bound on the iterations; and it asks for no support point that rounding could spoil. -/
theorem c117_apart3 (f : FmtR R u η Ω τ M eps tenth) {a b : Any3 × Dec3 ℝ} (ha : OkA3 R M a) (hb : OkA3 R M b) (nz : Any3 × Dec3 ℝ → V3 (Fl R) → Bool) (ca : ∀ k r, a.1 ≠ .cylinder k r) (cb : ∀ k r, b.1 ≠ .cylinder k r) (n : Nat) (far : 2 ≤ size3 (b.2.disp - a.2.disp))
    (apart : ∀ x y, atA3 a x → atA3 b y → (x - y).dot (b.2.disp - a.2.disp) ≤ -(1024 * (u * M) * size3 (b.2.disp - a.2.disp))) :
    ¬ AskedSpoil3 τ eps tenth nz n a b ∧ gjkA3 eps tenth nz n a b = .ok .miss := by
  have h := f.std
  have hs := h.std
  have hM := h.M1
  have hu := hs.u0
  have hu' := h.u'
  have hη := hs.η0
  obtain ⟨m3, m4, m6, m1⟩ := h.m3
  have hΩ4 := h.big4
  obtain ⟨s1, s2⟩ := h.small
  have uM : u * 1 ≤ u * M := mul_le_mul_of_nonneg_left hM hu
  have uM' : u * M ≤ 1 / 1024 * M := mul_le_mul_of_nonneg_right hu' (by linarith)
  generalize he : b.2.disp - a.2.disp = e at far apart
  have hes : Sz3 (2 * M) e := by
    rw [← he]
    have h1 := ha.place.sd
    have h2 := hb.place.sd
    exact ⟨(abs_sub _ _).trans (by linarith [h1.1, h2.1]), (abs_sub _ _).trans (by linarith [h1.2.1, h2.2.1]), (abs_sub _ _).trans (by linarith [h1.2.2, h2.2.2])⟩
  have hse := sz_size3 e
  have heM : size3 e ≤ 2 * M := size3_le hes
  -- the first direction
  have k : ∀ {p q : ℝ}, Rep R p → Rep R q → |q - p| ≤ size3 e → ∃ c, Rep R c ∧ toF R q - toF R p = toF R c ∧ |c - (q - p)| ≤ 2 * (u * size3 e) := by
    intro p q rp rq hpq
    obtain ⟨c, rc, ec, dc⟩ := hs.err (q - p) (by linarith)
    refine ⟨c, rc, by rw [toF_sub rq rp, ec], ?_⟩
    have h1 : u * |q - p| ≤ u * size3 e := mul_le_mul_of_nonneg_left hpq hu
    have h2 : u * 2 ≤ u * size3 e := mul_le_mul_of_nonneg_left far hu
    linarith
  have hx : |b.2.disp.x - a.2.disp.x| ≤ size3 e := by
    have := hse.1
    rwa [← he] at this ⊢
  have hy : |b.2.disp.y - a.2.disp.y| ≤ size3 e := by
    have := hse.2.1
    rwa [← he] at this ⊢
  have hz : |b.2.disp.z - a.2.disp.z| ≤ size3 e := by
    have := hse.2.2
    rwa [← he] at this ⊢
  obtain ⟨cx, rcx, ecx, dcx⟩ := k ha.place.rd.1 hb.place.rd.1 hx
  obtain ⟨cy, rcy, ecy, dcy⟩ := k ha.place.rd.2.1 hb.place.rd.2.1 hy
  obtain ⟨cz, rcz, ecz, dcz⟩ := k ha.place.rd.2.2 hb.place.rd.2.2 hz
  have hd : pointG3 (decF3 R b.2) 0 - pointG3 (decF3 R a.2) 0 = toV3 R ⟨cx, cy, cz⟩ := by
    rw [position3 ha.place, position3 hb.place]
    ext
    · exact ecx
    · exact ecy
    · exact ecz
  have dd : Sz3 (2 * (u * size3 e)) ((⟨cx, cy, cz⟩ : V3 ℝ) - e) := by
    rw [← he] at dcx dcy dcz ⊢
    exact ⟨dcx, dcy, dcz⟩
  have ue : u * size3 e ≤ 1 / 1024 * size3 e := mul_le_mul_of_nonneg_right hu' (by linarith)
  have rd : Rep3 R (⟨cx, cy, cz⟩ : V3 ℝ) := ⟨rcx, rcy, rcz⟩
  have sd : Sz3 (33 / 32 * size3 e) (⟨cx, cy, cz⟩ : V3 ℝ) := (sz3_sub dd hse).mono (by linarith)
  have big := size3_sub _ _ dd
  have big' : 3 / 2 ≤ size3 (⟨cx, cy, cz⟩ : V3 ℝ) := by linarith
  have first : firstDirectionG3 eps (pointG3 (decF3 R a.2) 0) (pointG3 (decF3 R b.2) 0) = toV3 R ⟨cx, cy, cz⟩ := by
    unfold firstDirectionG3
    dsimp only
    rw [hd, if_neg]
    rintro ⟨⟨n1, n2⟩, ⟨n3, n4⟩, n5, n6⟩
    have q : ∀ {x : ℝ}, Rep R x → |x| ≤ Ω → toF R x ≤ eps → -toF R x ≤ eps → |x| ≤ 1 := by
      intro x rx hx h1 h2
      have g1 := h1.trans f.eps1
      have g2 := h2.trans f.eps1
      rw [toF_neg rx, ← toF_one] at g2
      rw [← toF_one] at g1
      have := (toF_le rx rep_one).1 g1
      have := (toF_le (hs.rep_neg hx rx) rep_one).1 g2
      exact abs_le.2 ⟨by linarith, by linarith⟩
    have h1 := q rcx (sd.1.trans (by linarith)) n1 n2
    have h2 := q rcy (sd.2.1.trans (by linarith)) n3 n4
    have h3 := q rcz (sd.2.2.trans (by linarith)) n5 n6
    have : size3 (⟨cx, cy, cz⟩ : V3 ℝ) ≤ 1 := size3_le ⟨h1, h2, h3⟩
    linarith
  have hN : 33 / 32 * size3 e ≤ 2 ^ 22 * M ^ 3 := by linarith
  have nt : ∀ {c : Any3 × Dec3 ℝ}, (∀ k r, c.1 ≠ .cylinder k r) → ∀ {d : V3 ℝ}, Rep3 R d → size3 d = size3 (⟨cx, cy, cz⟩ : V3 ℝ) → ¬ Spoils3 R τ c (toV3 R d) := by
    intro c hc d rd' hd' hsp
    have ht : Tiny3 R τ (toV3 R d) := by
      obtain ⟨s, D⟩ := c
      cases s with
      | box s => exact hsp
      | sphere r => exact hsp
      | capsule k r => exact hsp
      | cylinder k r => exact absurd rfl (hc k r)
    obtain ⟨t1, t2, t3⟩ := ht
    have : size3 d ≤ τ := size3_le ⟨((tiny_iff rd'.1).1 t1).le, ((tiny_iff rd'.2.1).1 t2).le, ((tiny_iff rd'.2.2).1 t3).le⟩
    linarith [h.τ1]
  have rn := rep3_neg hs rd sd (by linarith)
  obtain ⟨w, -, -, ew, -⟩ := any3_near h nz ha hN _ rd sd (nt ca rd rfl)
  obtain ⟨w2, -, -, ew2, -⟩ := any3_near h nz hb hN _ rn sd.neg (nt cb rn (size3_neg _))
  rcases mink3_guarded h (BL := Spoils3 R τ a) (BR := Spoils3 R τ b) (fun d => tiny_spoils3) (any3_near h nz ha hN) (any3_near h nz hb hN) hN rd sd with e0 | ⟨v, e1, e2, ⟨v', va, ra, sa⟩, na, -⟩
  · exfalso
    unfold SP.fromMinkowski refusing at e0
    rw [if_neg (nt ca rd rfl), ew, Res.bind_ok, show -toV3 R (⟨cx, cy, cz⟩ : V3 ℝ) = toV3 R (-⟨cx, cy, cz⟩) from toV3_neg rd, if_neg (nt cb rn (size3_neg _)), ew2] at e0
    cases e0
  · have miss : v.v.dot (toV3 R ⟨cx, cy, cz⟩) ≤ 0 := by
      obtain ⟨x, y, z, p, q, hp, hq, rfl, rxx, nv, -⟩ := na
      have vx : v' = x := by
        have hh : toV3 R x = toV3 R v' := va
        have h1 := congrArg V3.x hh
        have h2 := congrArg V3.y hh
        have h3 := congrArg V3.z hh
        ext
        · exact ((toF_inj rxx.1.1 ra.1).1 h1).symm
        · exact ((toF_inj rxx.1.2.1 ra.2.1).1 h2).symm
        · exact ((toF_inj rxx.1.2.2 ra.2.2).1 h3).symm
      rw [va]
      have hMe : M * size3 e ≤ 2 * M ^ 4 := by
        have h1 : M * size3 e ≤ M * (2 * M) := mul_le_mul_of_nonneg_left heM (by linarith)
        have h2 : M ^ 2 ≤ M ^ 4 := pow_le_pow_right₀ hM (by norm_num)
        have h3 : M * (2 * M) = 2 * M ^ 2 := by ring
        linarith
      have m41 : 1 ≤ M ^ 4 := one_le_pow₀ hM
      obtain ⟨r, rr, er, dr⟩ := dot3_err hs ra rd sa sd (by
        have : 13 * M * (33 / 32 * size3 e) = 429 / 32 * (M * size3 e) := by ring
        linarith)
      rw [er, ← toF_zero]
      refine (toF_le rr rep_zero).2 ?_
      rw [← vx] at nv
      have b1 := dot3_sub_le nv hse
      have b2 := dot3_sub_le dd sa
      have b3 := apart p q hp hq
      have comm : ∀ a b : V3 ℝ, a.dot b = b.dot a := fun a b => by simp [V3.dot]; ring
      rw [comm _ v', comm e v'] at b2
      rw [abs_le] at b1 b2 dr
      have q0 : 0 ≤ u * M * size3 e := mul_nonneg (mul_nonneg hu (by linarith)) (by linarith)
      have g1 : u * (13 * M * (33 / 32 * size3 e)) = 429 / 32 * (u * M * size3 e) := by ring
      have g2 : 2 * (u * size3 e) * (13 * M) = 26 * (u * M * size3 e) := by ring
      have g3 : 176 * (u * M) * size3 e = 176 * (u * M * size3 e) := by ring
      have g4 : 1024 * (u * M) * size3 e = 1024 * (u * M * size3 e) := by ring
      have g5 : u * M * 2 ≤ u * M * size3 e := mul_le_mul_of_nonneg_left far (mul_nonneg hu (by linarith))
      rw [g1] at dr
      rw [g2] at b2
      rw [g3] at b1
      rw [g4] at b3
      linarith
    constructor
    · unfold AskedSpoil3
      rw [gjkRunG3_from, first]
      unfold runFrom
      rw [e1, Res.bind_ok]
      show ¬ (if v.v.dot (toV3 R ⟨cx, cy, cz⟩) ≤ 0 then _ else _) = _
      rw [if_pos miss]
      intro hh
      cases hh
    · unfold gjkA3
      rw [gjkRunG3_from, first]
      unfold runFrom
      rw [e2, Res.bind_ok]
      show (if v.v.dot (toV3 R ⟨cx, cy, cz⟩) ≤ 0 then _ else _) = _
      rw [if_pos miss]
      rfl

/-! ## Cases -/

theorem nearTurn2_one : NearTurn2 (⟨⟨1, 0⟩, ⟨0, 1⟩⟩ : M2 ℝ) :=
  ⟨⟨⟨1, 0⟩, ⟨0, 1⟩⟩, ⟨by simp [V2.dot], by simp [V2.dot], by simp [V2.dot]⟩, ⟨by simp, by simp⟩, by simp, by simp⟩

/-- Circles with radius 1, the first at the origin; the second at `(4, 1/3)` (to the nearest `f32`) and turned by the `f32` nearest to `(0.6, 0.8)`. -/
def circleA : Any2 × Dec2 ℝ := (.circle 1, ⟨1, ⟨⟨1, 0⟩, ⟨0, 1⟩⟩, 0⟩)
def circleB : Any2 × Dec2 ℝ := (.circle 1, ⟨1, ⟨⟨10066330 / 2 ^ 24, 13421773 / 2 ^ 24⟩, ⟨-13421773 / 2 ^ 24, 10066330 / 2 ^ 24⟩⟩, ⟨4, 11184811 / 2 ^ 25⟩⟩)
theorem c117_case : OkA2 binary32 4 circleA ∧ OkA2 binary32 4 circleB := by
  have r4 := frac32 4 0 (by norm_num) (by norm_num)
  have r0 := frac32 0 0 (by norm_num) (by norm_num)
  have r1 := frac32 1 0 (by norm_num) (by norm_num)
  have rc := frac32 10066330 24 (by norm_num) (by norm_num)
  have rs := frac32 13421773 24 (by norm_num) (by norm_num)
  have rn := frac32 (-13421773) 24 (by norm_num) (by norm_num)
  have rd := frac32 11184811 25 (by norm_num) (by norm_num)
  push_cast at r4 r0 r1 rc rs rn rd
  simp only [pow_zero, div_one] at r4 r0 r1
  have hT : NearTurn2 circleB.2.rot := by
    refine ⟨⟨⟨3 / 5, 4 / 5⟩, ⟨-4 / 5, 3 / 5⟩⟩, ⟨by norm_num [V2.dot], by norm_num [V2.dot], by norm_num [V2.dot]⟩, ⟨?_, ?_⟩, ?_, ?_⟩ <;>
      · simp only [circleB, V2.sub_x, V2.sub_y, abs_le]
        norm_num
  exact ⟨⟨⟨by norm_num, r1, by norm_num, nearTurn2_one⟩, rfl, ⟨r1, r0⟩, ⟨r0, r1⟩, ⟨by norm_num [circleA], by norm_num [circleA]⟩, ⟨by norm_num [circleA], by norm_num [circleA]⟩, ⟨r0, r0⟩, ⟨by simp [circleA], by simp [circleA]⟩⟩,
    ⟨by norm_num, r1, by norm_num, hT⟩, rfl, ⟨rc, rs⟩, ⟨rn, rc⟩, ⟨by norm_num [circleB, abs_le], by norm_num [circleB, abs_le]⟩, ⟨by norm_num [circleB, abs_le], by norm_num [circleB, abs_le]⟩, ⟨r4, rd⟩,
    ⟨by norm_num [circleB], by norm_num [circleB, abs_le]⟩⟩

/-- A case of the theorem: GJK in `f32` on the two circles answers with a miss, and asks for no small direction. -/
theorem c117_example (n : Nat) : ¬ AskedSpoil2 ((2 : ℝ) ^ (-61 : ℤ)) (toF binary32 eps32) n circleA circleB ∧ gjkA2 (toF binary32 eps32) n circleA circleB = .ok .miss := by
  obtain ⟨ha, hb⟩ := c117_case
  have sz : size2 (circleB.2.disp - circleA.2.disp) = 4 := by
    unfold size2
    simp only [circleA, circleB, V2.sub_x, V2.sub_y, V2.zero_x, V2.zero_y, sub_zero]
    rw [abs_of_nonneg (by norm_num), abs_of_nonneg (by norm_num), max_eq_left (by norm_num)]
  refine c117_apart2 (fmtR32 (M := 4) (by norm_num) (by norm_num)) ha hb n (by rw [sz]; norm_num) ?_
  rw [sz]
  rintro x y ⟨p, hp, rfl⟩ ⟨q, hq, rfl⟩
  have hp' := (sz_norm p).mono hp
  have hq' := (sz_norm q).mono hq
  obtain ⟨p1, p2⟩ := hp'
  obtain ⟨q1, q2⟩ := hq'
  rw [abs_le] at p1 p2 q1 q2
  simp only [circleA, circleB, Dec2.tr, M2.apply, V2.dot, V2.sub_x, V2.sub_y, V2.add_x, V2.add_y, V2.mul_x, V2.mul_y, V2.zero_x, V2.zero_y, mul_one, add_zero, sub_zero]
  norm_num
  linarith

theorem nearTurn3_one : NearTurn3 (⟨⟨1, 0, 0⟩, ⟨0, 1, 0⟩, ⟨0, 0, 1⟩⟩ : M3 ℝ) :=
  ⟨⟨⟨1, 0, 0⟩, ⟨0, 1, 0⟩, ⟨0, 0, 1⟩⟩, ⟨by simp [V3.dot], fun v => by ext <;> simp [M3.apply, M3.transpose]⟩, ⟨by simp, by simp, by simp⟩, ⟨by simp, by simp, by simp⟩, ⟨by simp, by simp, by simp⟩⟩

/-- A cylinder with height 2 and radius 1 at the origin, and a capsule with height 1 and radius 1/2 at `(1/2, 0, 1/4)`. -/
def canA : Any3 × Dec3 ℝ := (.cylinder 1 1, ⟨1, ⟨⟨1, 0, 0⟩, ⟨0, 1, 0⟩, ⟨0, 0, 1⟩⟩, 0⟩)
def pillB : Any3 × Dec3 ℝ := (.capsule (1 / 2) (1 / 2), ⟨1, ⟨⟨1, 0, 0⟩, ⟨0, 1, 0⟩, ⟨0, 0, 1⟩⟩, ⟨1 / 2, 0, 1 / 4⟩⟩)
theorem c117_case3 : OkA3 binary32 2 canA ∧ OkA3 binary32 2 pillB ∧ Deep3 (atA3 canA) (atA3 pillB) (1 / 4) := by
  have r0 := frac32 0 0 (by norm_num) (by norm_num)
  have r1 := frac32 1 0 (by norm_num) (by norm_num)
  have r2 := frac32 1 1 (by norm_num) (by norm_num)
  have r4 := frac32 1 2 (by norm_num) (by norm_num)
  push_cast at r0 r1 r2 r4
  simp only [pow_zero, div_one, pow_one] at r0 r1 r2
  rw [show (1 : ℝ) / 2 ^ 2 = 1 / 4 by norm_num] at r4
  have hm : FitsM binary32 (⟨⟨1, 0, 0⟩, ⟨0, 1, 0⟩, ⟨0, 0, 1⟩⟩ : M3 ℝ) := ⟨⟨r1, r0, r0⟩, ⟨r0, r1, r0⟩, ⟨r0, r0, r1⟩, ⟨by simp, by simp, by simp⟩, ⟨by simp, by simp, by simp⟩, by simp, by simp, by simp⟩
  refine ⟨⟨⟨⟨by norm_num, by norm_num⟩, ⟨r1, r1⟩, by norm_num, by norm_num⟩, rfl, hm, ⟨r0, r0, r0⟩, by simp [canA], by simp [canA], by simp [canA]⟩,
    ⟨⟨⟨by norm_num, by norm_num⟩, ⟨r2, r2⟩, by norm_num, nearTurn3_one⟩, rfl, hm, ⟨r2, r0, r4⟩, by norm_num [pillB], by norm_num [pillB], by norm_num [pillB]⟩, ?_⟩
  intro t ht
  obtain ⟨hx, hy, hz⟩ := (sz_norm3 t).mono ht
  have htt : t.dot t ≤ 1 / 4 * (1 / 4) := by
    rw [← norm_sq3]
    exact mul_self_le_mul_self (norm_nonneg3 t) ht
  rw [abs_le] at hx hy hz
  simp only [V3.dot] at htt
  refine ⟨⟨1 / 4 + t.x, t.y, 1 / 8 + t.z⟩, ⟨1 / 4, 0, 1 / 8⟩, ⟨⟨1 / 4 + t.x, t.y, 1 / 8 + t.z⟩, ⟨⟨by show -(1 : ℝ) ≤ t.y; linarith, by show t.y ≤ 1; linarith⟩, ?_⟩, ?_⟩, ⟨⟨-1 / 4, 0, -1 / 8⟩, ⟨0, ?_, ?_, ?_⟩, ?_⟩, ?_⟩
  · show (1 / 4 + t.x) * (1 / 4 + t.x) + (1 / 8 + t.z) * (1 / 8 + t.z) ≤ 1 * 1
    nlinarith
  · ext <;> simp [canA, Dec3.tr, M3.apply]
  · show -(1 / 2 : ℝ) ≤ 0
    norm_num
  · show (0 : ℝ) ≤ 1 / 2
    norm_num
  · show Real.sqrt _ ≤ 1 / 2
    refine Real.sqrt_le_iff.2 ⟨by norm_num, ?_⟩
    simp only [V3.dot, V3.sub_x, V3.sub_y, V3.sub_z]
    norm_num
  · ext <;> simp [pillB, Dec3.tr, M3.apply] <;> norm_num
  · ext <;> simp
/-- A case of the theorem: GJK in `f32` on the cylinder and the capsule answers, and does not miss them unless it asks for a direction that rounding spoils. -/
theorem c117_example3 (nz : Any3 × Dec3 ℝ → V3 (Fl binary32) → Bool) (n : Nat) : AskedSpoil3 ((2 : ℝ) ^ (-61 : ℤ)) (toF binary32 eps32) (toF binary32 (1 / 10)) nz n canA pillB ∨
    ∃ o, gjkA3 (toF binary32 eps32) (toF binary32 (1 / 10)) nz n canA pillB = .ok o ∧ o ≠ .miss := by
  obtain ⟨ha, hb, hd⟩ := c117_case3
  refine (c117_f32_3d (M := 2) (by norm_num) (by norm_num) nz ha hb n).imp_right ?_
  rintro ⟨o, h1, h2, -⟩
  exact ⟨o, h1, fun e => deep3_not_nearly (by norm_num) (by norm_num) hd (h2 e)⟩
end
end Verif.Scene
