import Verif.Minkowski.Toi2Total
import Verif.Minkowski.Gjk2Bound
/-!
# Time of impact in 2D returns for curved shapes too (C85)

`Toi2Total` counts support points, so it does not cover circles. Here the loop is bounded for all bounded shapes and every positive tolerance.

* A step that does not clip the ray makes the squared length of the closest point at most `B / (i + 1)` after `i` such steps, so there are fewer
  than `B / tolerance` of them in a row.
* After a clip the ray origin is on a supporting line of the Minkowski difference, so the new support point is the first point of the difference
  seen from the ray origin when turning in one of the two senses, and it stays in the simplex until the next clip.
* If the next clip leaves a point that is first in the same sense, the clipping direction has turned by a fixed amount into an interval of
  directions that only shrinks.
* If it leaves a point that is first in the other sense, then it needed more steps since the clip before it than every earlier clip of this kind
  with the same senses: the directions of the search, step by step, turn back when the ray origin moves forward.
-/
namespace Verif.Minkowski
open Verif Geom Primitive
set_option linter.unusedSectionVars false
noncomputable section
open Classical

/-! ## Turning -/

/-- The sine part of the turn from `a` to `b`, in the sense given by the sign `σ`. -/
def turn (σ : ℝ) (a b : V2 ℝ) : ℝ := σ * a.perpDot b

theorem turn_lagrange {σ : ℝ} (hσ : σ * σ = 1) (a b c : V2 ℝ) : a.dot a * b.dot c = a.dot b * a.dot c + turn σ a b * turn σ a c := by
  simp only [turn, V2.dot, V2.perpDot]
  linear_combination -((a.x * b.y - a.y * b.x) * (a.x * c.y - a.y * c.x)) * hσ

theorem turn_frame (σ : ℝ) (a b c : V2 ℝ) : a.dot a * turn σ b c = a.dot b * turn σ a c - a.dot c * turn σ a b := by
  simp only [turn, V2.dot, V2.perpDot]; ring

theorem turn_three (σ : ℝ) (a b c d : V2 ℝ) : turn σ a c * b.dot d = turn σ b c * a.dot d + turn σ a b * c.dot d := by
  simp only [turn, V2.dot, V2.perpDot]; ring

theorem turn_pluecker (σ : ℝ) (a b c d : V2 ℝ) : turn σ a b * turn σ c d - turn σ a c * turn σ b d + turn σ a d * turn σ b c = 0 := by
  simp only [turn, V2.perpDot]; ring

theorem turn_swap (σ : ℝ) (a b : V2 ℝ) : turn σ b a = -turn σ a b := by
  simp only [turn, V2.perpDot]; ring

theorem turn_neg (σ : ℝ) (a b : V2 ℝ) : turn (-σ) a b = -turn σ a b := by
  simp only [turn]; ring

theorem turn_self (σ : ℝ) (a : V2 ℝ) : turn σ a a = 0 := by
  simp only [turn, V2.perpDot]; ring

theorem dot_comm2 (a b : V2 ℝ) : a.dot b = b.dot a := by
  simp only [V2.dot]; ring

theorem turn_comb (σ : ℝ) (a b c : V2 ℝ) (x y : ℝ) : turn σ a (b * x + c * y) = turn σ a b * x + turn σ a c * y := by
  simp only [turn, V2.perpDot, V2.add_x, V2.add_y, V2.mul_x, V2.mul_y]; ring

theorem dot_comb (a b c : V2 ℝ) (x y : ℝ) : (b * x + c * y).dot a = b.dot a * x + c.dot a * y := by
  simp only [V2.dot, V2.add_x, V2.add_y, V2.mul_x, V2.mul_y]; ring

/-- A direction in the quarter turn after `e`. -/
def Quarter (σ : ℝ) (e a : V2 ℝ) : Prop := 0 ≤ e.dot a ∧ 0 ≤ turn σ e a

/-- In a quarter turn the order of directions is transitive. -/
theorem turn_trans {σ : ℝ} (hσ : σ * σ = 1) {e a b c : V2 ℝ} (he : 0 < e.dot e) (ha : Quarter σ e a) (hb : Quarter σ e b) (hc : Quarter σ e c) (hb0 : 0 < b.dot b)
    (hab : 0 ≤ turn σ a b) (hbc : 0 ≤ turn σ b c) : 0 ≤ turn σ a c := by
  by_cases h : 0 < e.dot b
  · have h1 := turn_three σ a b c e
    have h2 : 0 ≤ turn σ a c * b.dot e := by
      rw [h1, dot_comm2 a, dot_comm2 c]
      have := mul_nonneg hbc ha.1
      have := mul_nonneg hab hc.1
      linarith
    rw [dot_comm2] at h2
    exact nonneg_of_mul_nonneg_left h2 h
  · have h0 : e.dot b = 0 := le_antisymm (not_lt.1 h) hb.1
    have h1 := turn_lagrange hσ e b b
    rw [h0, zero_mul, zero_add] at h1
    have h2 : 0 < turn σ e b := by
      refine lt_of_le_of_ne hb.2 fun h => ?_
      rw [← h] at h1
      have := mul_pos he hb0
      linarith
    have h3 := turn_pluecker σ e a b c
    have h4 : 0 ≤ turn σ a c * turn σ e b := by
      have := mul_nonneg ha.2 hbc
      have := mul_nonneg hc.2 hab
      linarith
    exact nonneg_of_mul_nonneg_left h4 h2

/-- A direction between two others is a combination of them. -/
theorem turn_between {σ : ℝ} (hσ : σ * σ = 1) {e a b : V2 ℝ} (he : 0 < e.dot e) (ha : Quarter σ e a) (hb : Quarter σ e b) (hb0 : 0 < b.dot b) (hab : 0 ≤ turn σ a b) :
    ∃ x y : ℝ, 0 ≤ x ∧ 0 ≤ y ∧ a = e * x + b * y := by
  by_cases h : 0 < turn σ e b
  · refine ⟨turn σ a b / turn σ e b, turn σ e a / turn σ e b, div_nonneg hab h.le, div_nonneg ha.2 h.le, ?_⟩
    have hx : turn σ e b * a.x = e.x * turn σ a b + b.x * turn σ e a := by simp only [turn, V2.perpDot]; ring
    have hy : turn σ e b * a.y = e.y * turn σ a b + b.y * turn σ e a := by simp only [turn, V2.perpDot]; ring
    ext
    · simp only [V2.add_x, V2.mul_x]; field_simp; linarith
    · simp only [V2.add_y, V2.mul_y]; field_simp; linarith
  · have h0 : turn σ e b = 0 := le_antisymm (not_lt.1 h) hb.2
    have h1 := turn_lagrange hσ e b b
    rw [h0, zero_mul, add_zero] at h1
    have h2 : 0 < e.dot b := by
      refine lt_of_le_of_ne hb.1 fun h => ?_
      rw [← h] at h1
      have := mul_pos he hb0
      linarith
    have h3 := turn_three σ e a b e
    rw [h0, zero_mul] at h3
    have h4 : turn σ e a = 0 := by
      have h5 := mul_nonneg hab he.le
      have h6 := mul_nonneg ha.2 h2.le
      rw [dot_comm2 b] at h3
      have : turn σ e a * e.dot b = 0 := by linarith
      rcases mul_eq_zero.1 this with h | h
      · exact h
      · linarith
    refine ⟨e.dot a / e.dot e, 0, div_nonneg ha.1 he.le, le_rfl, ?_⟩
    have h5 : e.perpDot a = 0 := by
      have : turn σ e a * σ = 0 := by rw [h4, zero_mul]
      have e1 : turn σ e a * σ = σ * σ * e.perpDot a := by simp only [turn]; ring
      rw [e1, hσ, one_mul] at this
      exact this
    have hx : a.x * e.dot e = e.x * e.dot a := by simp only [V2.perpDot, V2.dot] at h5 ⊢; linear_combination -e.y * h5
    have hy : a.y * e.dot e = e.y * e.dot a := by simp only [V2.perpDot, V2.dot] at h5 ⊢; linear_combination e.x * h5
    ext
    · simp only [V2.add_x, V2.mul_x, mul_zero, add_zero]; field_simp; linarith
    · simp only [V2.add_y, V2.mul_y, mul_zero, add_zero]; field_simp; linarith

/-! ## Search paths after a clip -/

/-- `p` is the first point of `M` seen from `o`, turning in the sense `σ`, and the ray is further on. -/
structure Ext (M : V2 ℝ → Prop) (ray : V2 ℝ) (σ : ℝ) (o p : V2 ℝ) : Prop where
  mem : M p
  all : ∀ m, M m → 0 ≤ turn σ (p - o) (m - o)
  ahead : 0 < turn σ (p - o) ray

/-- The search vectors after `i` steps that do not clip, when the simplex started with `p` and keeps it; `f v q` says that `q` is the support point
found for the search vector `v`. -/
inductive Path (f : V2 ℝ → V2 ℝ → Prop) (o p : V2 ℝ) : Nat → V2 ℝ → Prop
  | zero : Path f o p 0 (p - o)
  | succ {i v q v'} (t : ℝ) : Path f o p i v → f v q → v.dot (q - o) ≤ 0 → 0 ≤ t → t ≤ 1 → v' = (p - o) + (q - p) * t → v'.dot v' ≤ (p - o).dot v' →
      v'.dot v' ≤ (q - o).dot v' → 0 < v'.dot v' → Path f o p (i + 1) v'

theorem ext_pos {M : V2 ℝ → Prop} {ray : V2 ℝ} {σ : ℝ} {o p : V2 ℝ} (h : Ext M ray σ o p) : 0 < (p - o).dot (p - o) := by
  apply dot_self_pos2
  intro h0
  have := h.ahead
  rw [h0] at this
  simp [turn, V2.perpDot] at this

theorem quarter_neg {σ : ℝ} (hσ : σ * σ = 1) {e v q : V2 ℝ} (hev : 0 < e.dot v) (hT : 0 ≤ turn σ e v) (hq : 0 ≤ turn σ e q) (hvq : v.dot q ≤ 0) : e.dot q ≤ 0 := by
  have h := turn_lagrange hσ e v q
  have h1 : e.dot e * v.dot q ≤ 0 := mul_nonpos_of_nonneg_of_nonpos (by simp only [V2.dot]; nlinarith [mul_self_nonneg e.x, mul_self_nonneg e.y]) hvq
  have h2 := mul_nonneg hT hq
  have h3 : e.dot v * e.dot q ≤ 0 := by linarith
  by_contra hn
  have := mul_pos hev (not_le.1 hn)
  linarith

variable {M : V2 ℝ → Prop} {f : V2 ℝ → V2 ℝ → Prop} {ray : V2 ℝ} {σ : ℝ}

/-- The support point belongs to `v` and is extreme. -/
def Supports (M : V2 ℝ → Prop) (f : V2 ℝ → V2 ℝ → Prop) : Prop := ∀ v q, 0 < v.dot v → f v q → M q ∧ ∀ m, M m → v.dot q ≤ v.dot m

/-- The support point depends on the direction only. -/
def ScaleFree (f : V2 ℝ → V2 ℝ → Prop) : Prop := ∀ (v : V2 ℝ) (k : ℝ) (q q' : V2 ℝ), 0 < v.dot v → 0 < k → f v q → f (v * k) q' → q = q'

theorem path_facts (hσ : σ * σ = 1) (hf : Supports M f) {o p : V2 ℝ} (he : Ext M ray σ o p) {i : Nat} {v : V2 ℝ} (h : Path f o p i v) :
    0 ≤ turn σ (p - o) v ∧ v.dot v ≤ (p - o).dot v ∧ 0 < v.dot v := by
  induction h with
  | zero => exact ⟨by rw [turn_self], le_rfl, ext_pos he⟩
  | succ t hp hq hle t0 t1 hv' h1 h2 h3 ih =>
    rename_i i v q v'
    refine ⟨?_, h1, h3⟩
    have hm := he.all q (hf v q ih.2.2 hq).1
    have e : turn σ (p - o) v' = turn σ (p - o) (q - o) * t := by
      rw [hv']; simp only [turn, V2.perpDot, V2.add_x, V2.add_y, V2.sub_x, V2.sub_y, V2.mul_x, V2.mul_y]; ring
    rw [e]
    exact mul_nonneg hm t0

theorem path_quarter (hσ : σ * σ = 1) (hf : Supports M f) {o p : V2 ℝ} (he : Ext M ray σ o p) {i : Nat} {v : V2 ℝ} (h : Path f o p i v) : Quarter σ (p - o) v :=
  have := path_facts hσ hf he h
  ⟨by linarith [this.2.1, this.2.2], this.1⟩

/-- One step of the path. -/
theorem step_facts (hσ : σ * σ = 1) {e v q v' : V2 ℝ} {t : ℝ} (he : 0 < e.dot e) (hT : 0 ≤ turn σ e v) (hev : 0 < e.dot v) (hq : 0 ≤ turn σ e q)
    (hvq : v.dot q ≤ 0) (t0 : 0 ≤ t) (t1 : t ≤ 1) (hv' : v' = e + (q - e) * t) (h1 : v'.dot v' ≤ e.dot v') (h2 : v'.dot v' ≤ q.dot v') (h3 : 0 < v'.dot v') :
    e.dot q ≤ 0 ∧ v'.dot e = v'.dot v' ∧ v'.dot q = v'.dot v' ∧ 0 ≤ turn σ v v' ∧ 0 < turn σ v' (q - e) := by
  have heq := quarter_neg hσ hev hT hq hvq
  have hsum : v'.dot v' = (1 - t) * e.dot v' + t * q.dot v' := by
    have : (e + (q - e) * t).dot v' = (1 - t) * e.dot v' + t * q.dot v' := by
      simp only [V2.dot, V2.add_x, V2.add_y, V2.sub_x, V2.sub_y, V2.mul_x, V2.mul_y]; ring
    rw [← this, ← hv']
  have t0' : 0 < t := by
    refine lt_of_le_of_ne t0 fun h => ?_
    have : v' = e := by rw [hv', ← h]; ext <;> simp
    rw [this, dot_comm2 q] at h2
    linarith
  have t1' : t < 1 := by
    refine lt_of_le_of_ne t1 fun h => ?_
    have : v' = q := by rw [hv', h]; ext <;> simp
    rw [this] at h1 h3
    linarith
  have a1 : e.dot v' = v'.dot v' := by
    refine le_antisymm ?_ h1
    by_contra hn
    have := mul_pos (sub_pos.2 t1') (sub_pos.2 (not_le.1 hn))
    have := mul_nonneg t0 (sub_nonneg.2 h2)
    linarith
  have a2 : q.dot v' = v'.dot v' := by
    refine le_antisymm ?_ h2
    by_contra hn
    have := mul_pos t0' (sub_pos.2 (not_le.1 hn))
    have := mul_nonneg (sub_pos.2 t1').le (sub_nonneg.2 h1)
    linarith
  have hTe : turn σ e v' = turn σ e q * t := by
    rw [hv']; simp only [turn, V2.perpDot, V2.add_x, V2.add_y, V2.sub_x, V2.sub_y, V2.mul_x, V2.mul_y]; ring
  have hTe0 : 0 ≤ turn σ e v' := by rw [hTe]; exact mul_nonneg hq t0
  refine ⟨heq, by rw [dot_comm2]; exact a1, by rw [dot_comm2]; exact a2, ?_, ?_⟩
  · by_contra hn
    have hn : 0 < turn σ v' v := by rw [turn_swap]; linarith [not_le.1 hn]
    have h := turn_three σ e v' v q
    rw [dot_comm2 v' q, a2] at h
    rcases eq_or_lt_of_le hT with h0 | h0
    · have h4 := turn_frame σ e v v'
      rw [← h0, mul_zero, sub_zero, turn_swap σ v' v] at h4
      have h5 := mul_nonneg hev.le hTe0
      have h6 := mul_pos he hn
      linarith
    · have h4 := mul_pos h0 h3
      have h5 := mul_nonpos_of_nonneg_of_nonpos hn.le heq
      have h6 := mul_nonpos_of_nonneg_of_nonpos hTe0 hvq
      linarith
  · have e1 : turn σ v' (q - e) = turn σ e q := by
      rw [hv']; simp only [turn, V2.perpDot, V2.add_x, V2.add_y, V2.sub_x, V2.sub_y, V2.mul_x, V2.mul_y]; ring
    rw [e1]
    refine lt_of_le_of_ne hq fun h0 => ?_
    have h4 := turn_lagrange hσ e q v'
    rw [← h0, zero_mul, add_zero, a1, a2] at h4
    have h5 := mul_nonpos_of_nonpos_of_nonneg heq h3.le
    have h6 := mul_pos he h3
    linarith

theorem path_le (hσ : σ * σ = 1) (hf : Supports M f) {o p : V2 ℝ} (he : Ext M ray σ o p) {j : Nat} {v : V2 ℝ} (h : Path f o p j v) :
    ∀ i ≤ j, ∃ u, Path f o p i u ∧ 0 ≤ turn σ u v := by
  induction h with
  | zero =>
    intro i hi
    obtain rfl : i = 0 := by omega
    exact ⟨_, .zero, by rw [turn_self]⟩
  | succ t hp hq hle t0 t1 hv' h1 h2 h3 ih =>
    rename_i j v q v'
    intro i hi
    have hnew : Path f o p (j + 1) v' := .succ t hp hq hle t0 t1 hv' h1 h2 h3
    by_cases hij : i = j + 1
    · subst hij
      exact ⟨_, hnew, by rw [turn_self]⟩
    obtain ⟨u, hu, hT⟩ := ih i (by omega)
    refine ⟨u, hu, ?_⟩
    have hpf := path_facts hσ hf he hp
    have := step_facts hσ (ext_pos he) hpf.1 (by linarith [hpf.2.1, hpf.2.2]) (he.all q (hf v q hpf.2.2 hq).1) hle t0 t1 (by rw [hv']; ext <;> simp) h1 h2 h3
    exact turn_trans hσ (ext_pos he) (path_quarter hσ hf he hu) (path_quarter hσ hf he hp) (path_quarter hσ hf he hnew) hpf.2.2 hT this.2.2.2.1

/-! ## Moving the ray origin forward turns the search back -/

theorem parallel_pos {σ : ℝ} (hσ : σ * σ = 1) {e a b : V2 ℝ} (he : 0 < e.dot e) (ha : Quarter σ e a) (hb : Quarter σ e b) (ha0 : 0 < a.dot a) (hb0 : 0 < b.dot b)
    (h : turn σ a b = 0) : ∃ k : ℝ, 0 < k ∧ b = a * k := by
  have hp : a.perpDot b = 0 := by
    have : turn σ a b * σ = σ * σ * a.perpDot b := by simp only [turn]; ring
    rw [h, hσ, zero_mul, one_mul] at this
    exact this.symm
  have hd : 0 ≤ a.dot b := by
    have h1 := turn_lagrange hσ e a b
    have h2 := mul_nonneg ha.1 hb.1
    have h3 := mul_nonneg ha.2 hb.2
    have h4 : 0 ≤ e.dot e * a.dot b := by linarith
    exact nonneg_of_mul_nonneg_right h4 he
  have hd' : 0 < a.dot b := by
    refine lt_of_le_of_ne hd fun h0 => ?_
    have h1 := turn_lagrange hσ a b b
    rw [← h0, h] at h1
    have := mul_pos ha0 hb0
    linarith
  refine ⟨a.dot b / a.dot a, div_pos hd' ha0, ?_⟩
  have hx : b.x * a.dot a = a.x * a.dot b := by simp only [V2.perpDot, V2.dot] at hp ⊢; linear_combination -a.y * hp
  have hy : b.y * a.dot a = a.y * a.dot b := by simp only [V2.perpDot, V2.dot] at hp ⊢; linear_combination a.x * hp
  ext
  · simp only [V2.mul_x]; field_simp; linarith
  · simp only [V2.mul_y]; field_simp; linarith

/-- The first point turns back. -/
theorem ext_back {o p p' : V2 ℝ} {s : ℝ} (hs : 0 < s) (he : Ext M ray σ o p) (he' : Ext M ray σ (o + ray * s) p') : 0 < turn σ (p' - (o + ray * s)) (p - o) := by
  have h := he'.all p he.mem
  have e : turn σ (p' - (o + ray * s)) (p - (o + ray * s)) = turn σ (p' - (o + ray * s)) (p - o) - turn σ (p' - (o + ray * s)) ray * s := by
    simp only [turn, V2.perpDot, V2.sub_x, V2.sub_y, V2.add_x, V2.add_y, V2.mul_x, V2.mul_y]; ring
  have := mul_pos he'.ahead hs
  linarith

/-- Step by step, the search from a later ray origin is behind the search from an earlier one. -/
theorem path_mono (hσ : σ * σ = 1) (hf : Supports M f) (hs : ScaleFree f) {o p p' : V2 ℝ} {s : ℝ} (hs0 : 0 < s) (he : Ext M ray σ o p)
    (he' : Ext M ray σ (o + ray * s) p') {j : Nat} {w : V2 ℝ} (hw : Path f o p j w) (hq : Quarter σ (p' - (o + ray * s)) w) :
    ∀ i u u', Path f o p i u → 0 ≤ turn σ u w → Path f (o + ray * s) p' i u' → 0 ≤ turn σ u' u := by
  set o' := o + ray * s with ho'
  have hback : 0 < turn σ (p' - o') (p - o) := ext_back hs0 he he'
  have hep := ext_pos he
  have hep' := ext_pos he'
  have hw0 := (path_facts hσ hf he hw).2.2
  have quarter : ∀ i u, Path f o p i u → 0 ≤ turn σ u w → Quarter σ (p' - o') u := by
    intro i u hu huw
    obtain ⟨x, y, hx, hy, e⟩ := turn_between hσ hep (path_quarter hσ hf he hu) (path_quarter hσ hf he hw) hw0 huw
    have hpe : 0 ≤ (p' - o').dot (p - o) := by
      -- the first point is between the later first point and `w`
      have h1 := turn_frame σ (p - o) (p' - o') w
      by_contra hn
      rw [not_le] at hn
      have h2 := turn_lagrange hσ (p - o) (p' - o') w
      rw [dot_comm2 _ (p' - o')] at h2
      have h3 : turn σ (p - o) (p' - o') < 0 := by rw [turn_swap]; linarith
      have h4 := (path_quarter hσ hf he hw).2
      have h5 : 0 < (p - o).dot w := by linarith [(path_facts hσ hf he hw).2.1]
      have h6 := mul_neg_of_neg_of_pos hn h5
      have h7 := mul_nonpos_of_nonpos_of_nonneg h3.le h4
      have h8 := mul_nonneg hep.le hq.1
      linarith
    constructor
    · rw [dot_comm2, e, dot_comb, dot_comm2 _ (p' - o'), dot_comm2 _ (p' - o')]
      exact add_nonneg (mul_nonneg hpe hx) (mul_nonneg hq.1 hy)
    · rw [e, turn_comb]
      exact add_nonneg (mul_nonneg hback.le hx) (mul_nonneg hq.2 hy)
  intro i
  induction i with
  | zero =>
    intro u u' hu huw hu'
    cases hu
    cases hu'
    exact hback.le
  | succ i ih =>
    intro v₁ v₁' hv₁ hvw hv₁'
    have hQ := quarter _ _ hv₁ hvw
    have hQ' := path_quarter hσ hf he' hv₁'
    have hv₁0 := (path_facts hσ hf he hv₁).2.2
    have hv₁0' := (path_facts hσ hf he' hv₁').2.2
    have hvE := (path_quarter hσ hf he hv₁)
    cases hv₁ with
    | succ t hp hfq hle t0 t1 hv h1 h2 h3 =>
    rename_i v q
    cases hv₁' with
    | succ t' hp' hfq' hle' t0' t1' hv' h1' h2' h3' =>
    rename_i v' q'
    have fv := path_facts hσ hf he hp
    have fv' := path_facts hσ hf he' hp'
    obtain ⟨hqM, hqm⟩ := hf v q fv.2.2 hfq
    obtain ⟨hqM', hqm'⟩ := hf v' q' fv'.2.2 hfq'
    obtain ⟨-, s1, s2, s3, -⟩ := step_facts hσ hep fv.1 (by linarith [fv.2.1]) (he.all q hqM) hle t0 t1 (by rw [hv]; ext <;> simp) h1 h2 h3
    obtain ⟨-, s1', s2', s3', s4'⟩ := step_facts hσ hep' fv'.1 (by linarith [fv'.2.1]) (he'.all q' hqM') hle' t0' t1' (by rw [hv']; ext <;> simp) h1' h2' h3'
    have hvw' : 0 ≤ turn σ v w := turn_trans hσ hep (path_quarter hσ hf he hp) hvE (path_quarter hσ hf he hw) hv₁0 s3 hvw
    have hvv' := ih v v' hp hvw' hp'
    have hQv := quarter _ _ hp hvw'
    have hQv' := path_quarter hσ hf he' hp'
    -- the new support point
    have d1 : 0 ≤ v₁.dot (q' - q) := by
      rcases eq_or_lt_of_le hvv' with h0 | h0
      · obtain ⟨k, hk, e⟩ := parallel_pos hσ hep' hQv' hQv fv'.2.2 fv.2.2 h0.symm
        have : q' = q := hs v' k q' q fv'.2.2 hk hfq' (by rw [← e]; exact hfq)
        rw [this]
        simp [V2.dot]
      · have h4 := turn_trans hσ hep' hQv' hQv hQ fv.2.2 hvv' s3
        have h5 := turn_three σ v' v v₁ (q' - q)
        have a1 : 0 ≤ v.dot (q' - q) := by
          have := hqm q' hqM'
          have e : v.dot (q' - q) = v.dot q' - v.dot q := by simp only [V2.dot, V2.sub_x, V2.sub_y]; ring
          linarith
        have a2 : v'.dot (q' - q) ≤ 0 := by
          have := hqm' q hqM
          have e : v'.dot (q' - q) = v'.dot q' - v'.dot q := by simp only [V2.dot, V2.sub_x, V2.sub_y]; ring
          linarith
        have h6 := mul_nonneg h4 a1
        have h7 := mul_nonpos_of_nonneg_of_nonpos s3 a2
        have h8 : 0 ≤ turn σ v' v * v₁.dot (q' - q) := by linarith
        exact nonneg_of_mul_nonneg_right h8 h0
    -- the new first point
    have d2 : v₁.dot (p' - p) ≤ 0 := by
      have a1 : 0 ≤ turn σ (p - o) (p' - p) := by
        have := he.all p' he'.mem
        have e : turn σ (p - o) (p' - o) = turn σ (p - o) (p' - p) := by simp only [turn, V2.perpDot, V2.sub_x, V2.sub_y]; ring
        linarith
      have a2 : turn σ (p' - o') (p' - p) ≤ 0 := by
        have := he'.all p he.mem
        have e : turn σ (p' - o') (p - o') = -turn σ (p' - o') (p' - p) := by simp only [turn, V2.perpDot, V2.sub_x, V2.sub_y]; ring
        linarith
      have h5 := turn_three σ (p' - o') (p' - p) (p - o) v₁
      rw [turn_swap σ (p - o) (p' - p)] at h5
      have h6 := mul_nonneg a1 hQ.1
      have h7 := mul_nonpos_of_nonpos_of_nonneg a2 hvE.1
      have h8 : turn σ (p' - o') (p - o) * (p' - p).dot v₁ ≤ 0 := by linarith
      rw [dot_comm2]
      by_contra hn
      have := mul_pos hback (not_le.1 hn)
      linarith
    have d3 : 0 ≤ v₁.dot (q' - p') := by
      have e : v₁.dot (q' - p') = v₁.dot (q' - q) - v₁.dot (p' - p) + (v₁.dot (q - o) - v₁.dot (p - o)) := by
        simp only [V2.dot, V2.sub_x, V2.sub_y]; ring
      rw [s1, s2] at e
      linarith
    have e4 : q' - o' - (p' - o') = q' - p' := by ext <;> simp
    rw [e4] at s4'
    have h4 := turn_lagrange hσ v₁' v₁ (q' - p')
    have h5 : v₁'.dot (q' - p') = 0 := by
      have : v₁'.dot (q' - p') = v₁'.dot (q' - o') - v₁'.dot (p' - o') := by simp only [V2.dot, V2.sub_x, V2.sub_y]; ring
      rw [this, s1', s2', sub_self]
    rw [h5, mul_zero, zero_add] at h4
    have h6 : 0 ≤ turn σ v₁' v₁ * turn σ v₁' (q' - p') := by rw [← h4]; exact mul_nonneg hv₁0'.le d3
    exact nonneg_of_mul_nonneg_left h6 s4'

/-- No search of fewer than `a` steps in the sense `σ` clips any more. -/
def NoClip (M : V2 ℝ → Prop) (f : V2 ℝ → V2 ℝ → Prop) (ray : V2 ℝ) (σ : ℝ) (a : Nat) (o : V2 ℝ) : Prop :=
  ∀ s : ℝ, 0 ≤ s → ∀ p, Ext M ray σ (o + ray * s) p → ∀ i < a, ∀ v, Path f (o + ray * s) p i v → ∃ m, M m ∧ v.dot (m - (o + ray * s)) ≤ 0

theorem move_twice (o ray : V2 ℝ) (s s' : ℝ) : o + ray * s + ray * s' = o + ray * (s + s') := by
  ext <;> simp <;> ring

theorem noClip_move {a : Nat} {o : V2 ℝ} (h : NoClip M f ray σ a o) {s : ℝ} (hs : 0 ≤ s) : NoClip M f ray σ a (o + ray * s) := by
  intro s' hs' p
  rw [move_twice]
  exact h (s + s') (add_nonneg hs hs') p

/-- A clip that changes the sense. -/
theorem cross_noClip (hσ : σ * σ = 1) (hf : Supports M f) (hs : ScaleFree f) {o p m : V2 ℝ} {s : ℝ} (hs0 : 0 < s) (he : Ext M ray σ o p) {j : Nat} {v : V2 ℝ}
    (hv : Path f o p j v) (hr : 0 < v.dot ray) (hm : M m) (h0 : v.dot (m - (o + ray * s)) = 0) (h1 : turn σ (m - (o + ray * s)) v < 0) :
    NoClip M f ray σ (j + 1) (o + ray * s) := by
  intro s' hs' p'
  rw [move_twice]
  intro he' i hi v' hv'
  refine ⟨m, hm, ?_⟩
  have hv0 := (path_facts hσ hf he hv).2.2
  have hvq := path_quarter hσ hf he hv
  have hback := ext_back (by linarith : 0 < s + s') he he'
  have hahead := he.ahead
  have hw0 : 0 < turn σ ray (m - (o + ray * s)) := by
    have h := turn_frame σ v ray (m - (o + ray * s))
    rw [h0, zero_mul, sub_zero, turn_swap σ (m - (o + ray * s)) v] at h
    have := mul_pos hr (neg_pos.2 h1)
    rw [← h] at this
    exact pos_of_mul_pos_right this hv0.le
  have hw1 : 0 < turn σ ray (m - (o + ray * (s + s'))) := by
    have e : turn σ ray (m - (o + ray * (s + s'))) = turn σ ray (m - (o + ray * s)) := by
      simp only [turn, V2.perpDot, V2.sub_x, V2.sub_y, V2.add_x, V2.add_y, V2.mul_x, V2.mul_y]; ring
    rw [e]; exact hw0
  have hvw : v.dot (m - (o + ray * (s + s'))) ≤ 0 := by
    have e : v.dot (m - (o + ray * (s + s'))) = v.dot (m - (o + ray * s)) - v.dot ray * s' := by
      simp only [V2.dot, V2.sub_x, V2.sub_y, V2.add_x, V2.add_y, V2.mul_x, V2.mul_y]; ring
    rw [e, h0]
    have := mul_nonneg hr.le hs'
    linarith
  have hew := he'.all m hm
  have her := he'.ahead
  have hee := ext_pos he'
  have hq' := path_quarter hσ hf he' hv'
  have hpq : ∀ i u, Path f o p i u → 0 ≤ turn σ u v → Quarter σ (p' - (o + ray * (s + s'))) v → 0 ≤ turn σ v' u → 0 < u.dot u → Quarter σ (p' - (o + ray * (s + s'))) u →
      0 ≤ turn σ v' v := fun i u hu huv hQ hvu hu0 hQu => turn_trans hσ hee hq' hQu hQ hu0 hvu huv
  have hmono := fun hQ => path_mono hσ hf hs (by linarith : 0 < s + s') he he' hv hQ
  obtain ⟨u, hu, huv⟩ := path_le hσ hf he hv i (by omega)
  have hu0 := (path_facts hσ hf he hu).2.2
  have huq := path_quarter hσ hf he hu
  have hep := ext_pos he
  set e' := p' - (o + ray * (s + s')) with he'def
  set w := m - (o + ray * (s + s')) with hw
  clear_value e' w
  have hTv : 0 ≤ turn σ e' v := by
    by_contra hn
    rw [not_le] at hn
    have p1 := turn_pluecker σ e' ray (p - o) v
    have q1 := mul_nonneg her.le hvq.2
    have q2 : 0 < turn σ e' v * turn σ ray (p - o) := by rw [turn_swap σ (p - o) ray]; exact mul_pos_of_neg_of_neg hn (by linarith)
    have r1 : 0 < turn σ ray v := by
      have : 0 < turn σ e' (p - o) * turn σ ray v := by linarith
      exact pos_of_mul_pos_right this hback.le
    have p2 := turn_pluecker σ e' ray w v
    have q3 := mul_nonneg hew r1.le
    have q4 := mul_neg_of_neg_of_pos hn hw1
    have r2 : 0 < turn σ w v := by
      have : 0 < turn σ e' ray * turn σ w v := by linarith
      exact pos_of_mul_pos_right this her.le
    have p3 := turn_three σ ray w v v
    rw [dot_comm2 ray v, dot_comm2 w v] at p3
    have q5 := mul_pos r2 hr
    have q6 := mul_pos hw1 hv0
    have q7 := mul_nonpos_of_nonneg_of_nonpos r1.le hvw
    linarith
  have i1 := turn_lagrange hσ e' v ray
  have i2 := turn_lagrange hσ e' v w
  have i3 := turn_frame σ e' ray w
  have j1 := mul_pos hee hr
  have j2 := mul_nonpos_of_nonneg_of_nonpos hee.le hvw
  have j3 := mul_pos hee hw1
  have hev : 0 ≤ e'.dot v := by
    by_contra hn
    rw [not_le] at hn
    have k1 := mul_neg_of_neg_of_pos hn (by rw [← i3]; exact j3 : 0 < e'.dot ray * turn σ e' w - e'.dot w * turn σ e' ray)
    have k2 := mul_nonneg hew (by rw [← i1]; exact j1.le : 0 ≤ e'.dot v * e'.dot ray + turn σ e' v * turn σ e' ray)
    have k3 := mul_nonpos_of_nonneg_of_nonpos her.le (by rw [← i2]; exact j2 : e'.dot v * e'.dot w + turn σ e' v * turn σ e' w ≤ 0)
    nlinarith only [k1, k2, k3]
  have hew' : e'.dot w ≤ 0 := by
    rcases eq_or_lt_of_le hev with h | h
    · rw [← h, zero_mul, zero_add] at i2
      have hT0 : 0 < turn σ e' v := by
        refine lt_of_le_of_ne hTv fun h' => ?_
        have := turn_lagrange hσ e' v v
        rw [← h, ← h'] at this
        have := mul_pos hee hv0
        linarith
      have hz : turn σ e' w = 0 := by
        refine le_antisymm ?_ hew
        by_contra hn
        have := mul_pos hT0 (not_le.1 hn)
        linarith
      rw [hz, mul_zero, zero_sub] at i3
      by_contra hn
      have := mul_pos (not_le.1 hn) her
      linarith
    · have := mul_nonneg hTv hew
      by_contra hn
      have := mul_pos h (not_le.1 hn)
      linarith
  have hQ : Quarter σ e' v := ⟨hev, hTv⟩
  have hvu := hmono hQ i u v' hu huv hv'
  have hQu : Quarter σ e' u := by
    obtain ⟨x, y, hx, hy, e⟩ := turn_between hσ hep huq hvq hv0 huv
    have hpe : 0 ≤ e'.dot (p - o) := by
      by_contra hn
      rw [not_le] at hn
      have h2 := turn_lagrange hσ (p - o) e' v
      rw [dot_comm2 _ e'] at h2
      have h3 : turn σ (p - o) e' < 0 := by rw [turn_swap]; linarith
      have h5 : 0 < (p - o).dot v := by linarith [(path_facts hσ hf he hv).2.1]
      have h6 := mul_neg_of_neg_of_pos hn h5
      have h7 := mul_nonpos_of_nonpos_of_nonneg h3.le hvq.2
      have h8 := mul_nonneg hep.le hev
      linarith
    constructor
    · rw [dot_comm2, e, dot_comb, dot_comm2 _ e', dot_comm2 _ e']
      exact add_nonneg (mul_nonneg hpe hx) (mul_nonneg hev hy)
    · rw [e, turn_comb]
      exact add_nonneg (mul_nonneg hback.le hx) (mul_nonneg hTv hy)
  have hfin := hpq i u hu huv hQ hvu hu0 hQu
  obtain ⟨x, y, hx, hy, e⟩ := turn_between hσ hee hq' hQ hv0 hfin
  rw [e, dot_comb]
  exact add_nonpos (mul_nonpos_of_nonpos_of_nonneg hew' hx) (mul_nonpos_of_nonpos_of_nonneg hvw hy)

/-! ## The interval of directions that can still clip -/

/-- The sine of the angle from the ray to `n`. -/
def sine (σ : ℝ) (ray n : V2 ℝ) : ℝ := turn σ ray n / (ray.norm * n.norm)

/-- Directions that clip from now on are not beyond `h`. -/
def UpTo (M : V2 ℝ → Prop) (ray : V2 ℝ) (σ h : ℝ) (o : V2 ℝ) : Prop :=
  ∀ s : ℝ, 0 ≤ s → ∀ n : V2 ℝ, 0 < n.dot ray → (∀ m, M m → 0 < n.dot (m - (o + ray * s))) → sine σ ray n ≤ h

theorem upTo_move {h : ℝ} {o : V2 ℝ} (hu : UpTo M ray σ h o) {s : ℝ} (hs : 0 ≤ s) : UpTo M ray σ h (o + ray * s) := by
  intro s' hs' n
  rw [move_twice]
  exact hu (s + s') (add_nonneg hs hs') n

theorem unit_step {c s c' s' : ℝ} (hc : 0 < c) (hc' : 0 < c') (h : c * c + s * s = 1) (h' : c' * c' + s' * s' = 1) (hx : 0 ≤ c * s' - s * c') :
    s + (c * s' - s * c') * (c * s' - s * c') / 2 ≤ s' := by
  have hD : c * c' + s * s' ≤ 1 := by nlinarith [sq_nonneg (c - c'), sq_nonneg (s - s')]
  have hD' : -1 ≤ c * c' + s * s' := by nlinarith [sq_nonneg (c + c'), sq_nonneg (s + s')]
  have hss : s ≤ s' := by
    by_contra hn
    rw [not_le] at hn
    by_cases h0 : 0 ≤ s'
    · have : c < c' := by nlinarith
      nlinarith
    · by_cases h1 : 0 ≤ s
      · nlinarith
      · have : c' < c := by nlinarith
        nlinarith
  have e : (c * s' - s * c') * (c * s' - s * c') = 1 - (c * c' + s * s') * (c * c' + s * s') := by
    have : (c * s' - s * c') * (c * s' - s * c') + (c * c' + s * s') * (c * c' + s * s') = (c * c + s * s) * (c' * c' + s' * s') := by ring
    rw [h, h'] at this
    linarith
  rw [e]
  have h1 : (1 - (c * c' + s * s') * (c * c' + s * s')) / 2 ≤ 1 - (c * c' + s * s') := by nlinarith
  have h2 : 1 - (c * c' + s * s') ≤ s' - s := by
    -- `(1 - s') (1 + s) ≤ c c'`
    have hs1 : s' ≤ 1 := by nlinarith
    have hs2 : -1 ≤ s := by nlinarith
    have : (1 - s') * (1 + s) ≤ c * c' := by
      apply abs_le_of_sq_le_sq' _ (mul_pos hc hc').le |>.2
      have e1 : (c * c') ^ 2 = ((1 - s') * (1 + s)) * ((1 + s') * (1 - s)) := by
        have : (c * c') ^ 2 = (c * c) * (c' * c') := by ring
        rw [this, show c * c = 1 - s * s by linarith, show c' * c' = 1 - s' * s' by linarith]; ring
      rw [e1, pow_two]
      apply mul_le_mul_of_nonneg_left _ (mul_nonneg (by linarith) (by linarith))
      nlinarith
    nlinarith
  linarith

theorem norm_pos_of_dot {a : V2 ℝ} (h : 0 < a.dot a) : 0 < a.norm := Real.sqrt_pos.2 h

theorem norm_mul_self (a : V2 ℝ) : a.norm * a.norm = a.dot a :=
  Real.mul_self_sqrt (by simp only [V2.dot]; nlinarith [mul_self_nonneg a.x, mul_self_nonneg a.y])

theorem sine_step (hσ : σ * σ = 1) {a b : V2 ℝ} (ha : 0 < a.dot ray) (hb : 0 < b.dot ray) (h : 0 ≤ turn σ a b) :
    sine σ ray a + turn σ a b * turn σ a b / (a.dot a * b.dot b) / 2 ≤ sine σ ray b := by
  have hr0 : 0 < ray.dot ray := dot_self_pos2 (by rintro rfl; simp [V2.dot] at ha)
  have ha0 : 0 < a.dot a := dot_self_pos2 (by rintro rfl; simp [V2.dot] at ha)
  have hb0 : 0 < b.dot b := dot_self_pos2 (by rintro rfl; simp [V2.dot] at hb)
  have nr := norm_pos_of_dot hr0
  have na := norm_pos_of_dot ha0
  have nb := norm_pos_of_dot hb0
  have sr := norm_mul_self ray
  have sa := norm_mul_self a
  have sb := norm_mul_self b
  have unit : ∀ x : V2 ℝ, 0 < x.norm → x.norm * x.norm = x.dot x →
      ray.dot x / (ray.norm * x.norm) * (ray.dot x / (ray.norm * x.norm)) + sine σ ray x * sine σ ray x = 1 := by
    intro x nx sx
    have := turn_lagrange hσ ray x x
    unfold sine
    rw [← sr, ← sx] at this
    field_simp
    linarith
  have hx : ray.dot a / (ray.norm * a.norm) * sine σ ray b - sine σ ray a * (ray.dot b / (ray.norm * b.norm)) = turn σ a b / (a.norm * b.norm) := by
    have := turn_frame σ ray a b
    rw [← sr] at this
    unfold sine
    field_simp
    linarith
  have := unit_step (c := ray.dot a / (ray.norm * a.norm)) (s := sine σ ray a) (c' := ray.dot b / (ray.norm * b.norm)) (s' := sine σ ray b)
    (div_pos (by rw [dot_comm2]; exact ha) (mul_pos nr na)) (div_pos (by rw [dot_comm2]; exact hb) (mul_pos nr nb)) (unit a na sa) (unit b nb sb)
    (by rw [hx]; exact div_nonneg h (mul_pos na nb).le)
  rw [hx] at this
  have e : turn σ a b / (a.norm * b.norm) * (turn σ a b / (a.norm * b.norm)) = turn σ a b * turn σ a b / (a.dot a * b.dot b) := by
    rw [← sa, ← sb]
    field_simp
  rw [e] at this
  exact this

theorem sine_le_one (hσ : σ * σ = 1) {n : V2 ℝ} (hn : 0 < n.dot ray) : sine σ ray n ≤ 1 := by
  have hr0 : 0 < ray.dot ray := dot_self_pos2 (by rintro rfl; simp [V2.dot] at hn)
  have hn0 : 0 < n.dot n := dot_self_pos2 (by rintro rfl; simp [V2.dot] at hn)
  have nr := norm_pos_of_dot hr0
  have nn := norm_pos_of_dot hn0
  unfold sine
  rw [div_le_one (mul_pos nr nn)]
  apply abs_le_of_sq_le_sq' _ (mul_pos nr nn).le |>.2
  have := turn_lagrange hσ ray n n
  have e : (ray.norm * n.norm) ^ 2 = ray.dot ray * n.dot n := by rw [← norm_mul_self, ← norm_mul_self]; ring
  rw [e, this, pow_two]
  linarith [mul_self_nonneg (ray.dot n)]

/-- After a clip along `n` that leaves a first point in the sense `σ`, later directions are not beyond `n`. -/
theorem upTo_clip (hσ : σ * σ = 1) {o p n : V2 ℝ} (hp : M p) (hn : 0 < n.dot ray) (h0 : n.dot (p - o) = 0) (h1 : 0 < turn σ (p - o) n) : UpTo M ray σ (sine σ ray n) o := by
  intro s hs n' hn' hm
  have hn0 : 0 < n.dot n := dot_self_pos2 (by rintro rfl; simp [V2.dot] at hn)
  have h2 := hm p hp
  have e : n'.dot (p - (o + ray * s)) = n'.dot (p - o) - n'.dot ray * s := by
    simp only [V2.dot, V2.sub_x, V2.sub_y, V2.add_x, V2.add_y, V2.mul_x, V2.mul_y]; ring
  have h3 : 0 < n'.dot (p - o) := by
    have := mul_nonneg hn'.le hs
    linarith
  have h4 := turn_lagrange hσ n n' (p - o)
  rw [h0, mul_zero, zero_add, turn_swap σ n' n, turn_swap σ (p - o) n] at h4
  have h5 := mul_pos hn0 h3
  have h6 : 0 < turn σ n' n := by
    have : 0 < turn σ n' n * turn σ (p - o) n := by linarith
    exact pos_of_mul_pos_left this h1.le
  have h7 := sine_step hσ hn' hn h6.le
  have h8 : 0 ≤ turn σ n' n * turn σ n' n / (n'.dot n' * n.dot n) / 2 := by
    have hn0' : 0 < n'.dot n' := dot_self_pos2 (by rintro rfl; simp [V2.dot] at hn')
    exact div_nonneg (div_nonneg (mul_self_nonneg _) (mul_pos hn0' hn0).le) (by norm_num)
  linarith

/-- The next direction of a clip has turned by a fixed amount. -/
theorem turned (hσ : σ * σ = 1) {e n v : V2 ℝ} {J : ℝ} (hn : 0 < n.dot ray) (hv : 0 < v.dot ray) (h0 : n.dot e = 0) (h1 : 0 < turn σ e n) (hev : v.dot v ≤ e.dot v)
    (hJ : e.dot e ≤ J * v.dot v) (hJ0 : 0 < J) : sine σ ray v + 1 / (2 * J) ≤ sine σ ray n := by
  have hn0 : 0 < n.dot n := dot_self_pos2 (by rintro rfl; simp [V2.dot] at hn)
  have hv0 : 0 < v.dot v := dot_self_pos2 (by rintro rfl; simp [V2.dot] at hv)
  have h2 := turn_lagrange hσ n v e
  rw [h0, mul_zero, zero_add, turn_swap σ v n, turn_swap σ e n, dot_comm2 v e] at h2
  have h3 := turn_lagrange hσ n e e
  rw [h0, mul_zero, zero_add, turn_swap σ e n] at h3
  have h4 : 0 < turn σ v n := by
    have : 0 < turn σ v n * turn σ e n := by
      have := mul_pos hn0 (lt_of_lt_of_le hv0 hev)
      linarith
    exact pos_of_mul_pos_left this h1.le
  have h5 := sine_step hσ hv hn h4.le
  have he0 : 0 < e.dot e := lt_of_le_of_ne (by simp only [V2.dot]; nlinarith [mul_self_nonneg e.x, mul_self_nonneg e.y]) fun h => by
    rw [← h, mul_zero] at h3
    have := mul_pos h1 h1
    linarith
  have h6 : 1 / J ≤ turn σ v n * turn σ v n / (v.dot v * n.dot n) := by
    rw [div_le_div_iff₀ hJ0 (mul_pos hv0 hn0), one_mul]
    have a1 : turn σ v n * turn σ v n * e.dot e = n.dot n * (e.dot v * e.dot v) := by
      have b1 : (n.dot n * e.dot v) * (n.dot n * e.dot v) = turn σ v n * turn σ v n * (n.dot n * e.dot e) := by rw [h2, h3]; ring
      have b2 : n.dot n * (turn σ v n * turn σ v n * e.dot e) = n.dot n * (n.dot n * (e.dot v * e.dot v)) := by linarith
      exact mul_left_cancel₀ hn0.ne' b2
    have a2 : v.dot v * v.dot v ≤ e.dot v * e.dot v := mul_self_le_mul_self hv0.le hev
    have a3 : n.dot n * (v.dot v * v.dot v) ≤ turn σ v n * turn σ v n * e.dot e := by rw [a1]; exact mul_le_mul_of_nonneg_left a2 hn0.le
    have a4 : turn σ v n * turn σ v n * e.dot e ≤ turn σ v n * turn σ v n * (J * v.dot v) := mul_le_mul_of_nonneg_left hJ (mul_self_nonneg _)
    have a5 : v.dot v * (v.dot v * n.dot n) ≤ v.dot v * (turn σ v n * turn σ v n * J) := by linarith
    exact le_of_mul_le_mul_left a5 hv0
  have h7 : 1 / (2 * J) = 1 / J / 2 := by rw [div_div, mul_comm]
  rw [h7]
  linarith

/-! ## The loop -/

/-- `q` is the support point that the loop finds for the search vector `v`. -/
def Found (left right : V2 ℝ → Res (V2 ℝ)) (v q : V2 ℝ) : Prop := ∃ p, SP.fromMinkowski left right (-v) = .ok p ∧ p.v = q

/-- A step that does not clip shortens the search vector by a fixed amount. -/
theorem shorter {v c p : V2 ℝ} {B i : ℝ} (hv : 0 < v.dot v) (hp : p.dot v ≤ 0) (h1 : c.dot c ≤ v.dot c) (h2 : c.dot c ≤ p.dot c) (hB : p.dot p ≤ B) (hi : 0 ≤ i)
    (hv2 : (i + 1) * v.dot v ≤ B) : (i + 1 + 1) * c.dot c ≤ B := by
  have hP0 : 0 ≤ p.dot p := by simp only [V2.dot]; nlinarith [mul_self_nonneg p.x, mul_self_nonneg p.y]
  have hC0 : 0 ≤ c.dot c := by simp only [V2.dot]; nlinarith [mul_self_nonneg c.x, mul_self_nonneg c.y]
  have key : c.dot c * (v.dot v + p.dot p) ≤ v.dot v * p.dot p := by
    rcases eq_or_lt_of_le hC0 with h | h
    · rw [← h, zero_mul]; exact mul_nonneg hv.le hP0
    set m : V2 ℝ := v * p.dot p + p * v.dot v with hm
    have e1 : m.dot c = v.dot c * p.dot p + p.dot c * v.dot v := by rw [hm, dot_comb]
    have e2 : m.dot m = v.dot v * p.dot p * (v.dot v + p.dot p) + 2 * (v.dot v * p.dot p) * p.dot v := by
      rw [hm]; simp only [V2.dot, V2.add_x, V2.add_y, V2.mul_x, V2.mul_y]; ring
    have a1 : c.dot c * (v.dot v + p.dot p) ≤ m.dot c := by
      rw [e1]
      have := mul_le_mul_of_nonneg_right h1 hP0
      have := mul_le_mul_of_nonneg_right h2 hv.le
      linarith
    have a2 : m.dot m ≤ v.dot v * p.dot p * (v.dot v + p.dot p) := by
      rw [e2]
      have := mul_nonpos_of_nonneg_of_nonpos (mul_nonneg hv.le hP0) hp
      linarith
    have a3 : m.dot c * m.dot c ≤ m.dot m * c.dot c := by
      simp only [V2.dot]; nlinarith [mul_self_nonneg (m.x * c.y - m.y * c.x)]
    have hs : 0 < v.dot v + p.dot p := by linarith
    have a4 : (c.dot c * (v.dot v + p.dot p)) * (c.dot c * (v.dot v + p.dot p)) ≤ m.dot c * m.dot c :=
      mul_self_le_mul_self (mul_nonneg hC0 hs.le) a1
    have a5 : m.dot m * c.dot c ≤ v.dot v * p.dot p * (v.dot v + p.dot p) * c.dot c := mul_le_mul_of_nonneg_right a2 hC0
    have a6 : (c.dot c * (v.dot v + p.dot p)) * (c.dot c * (v.dot v + p.dot p)) ≤ (c.dot c * (v.dot v + p.dot p)) * (v.dot v * p.dot p) := by linarith
    exact le_of_mul_le_mul_left a6 (mul_pos h hs)
  have hs : 0 < v.dot v + p.dot p := by linarith
  have b1 : (i + 1 + 1) * (c.dot c * (v.dot v + p.dot p)) ≤ (i + 1 + 1) * (v.dot v * p.dot p) := mul_le_mul_of_nonneg_left key (by linarith)
  have b2 := mul_le_mul_of_nonneg_right hv2 hP0
  have b3 := mul_le_mul_of_nonneg_left hB hv.le
  have b4 : (i + 1 + 1) * c.dot c * (v.dot v + p.dot p) ≤ B * (v.dot v + p.dot p) := by linarith
  exact le_of_mul_le_mul_right b4 hs

/-- The simplex of the loop between its second and third support point. -/
inductive Short : List (SP (V2 ℝ)) → V2 ℝ → Prop
  | one (a : SP (V2 ℝ)) : Short [a] a.v
  | edge {s0 s1 : SP (V2 ℝ)} {v} : closestOnEdge2 s1.v s0.v = some v → Short [s0, s1] v

/-- The states of the loop, with a bound for the number of iterations that are left. -/
inductive Steps (M : V2 ℝ → Prop) (f : V2 ℝ → V2 ℝ → Prop) (ray : V2 ℝ) (B : ℝ) (J : Nat) (o : V2 ℝ) : Nat → List (SP (V2 ℝ)) → V2 ℝ → Prop
  /-- at the start -/
  | start (v) : Steps M f ray B J o ((6 * J + 1) * (J + 1) + J + 1) [] v
  /-- before the first clip -/
  | free (i : Nat) {s v} : Short s v → ((i : ℝ) + 1) * v.dot v ≤ B → Steps M f ray B J o ((6 * J + 1) * (J + 1) + (J - i)) s v
  /-- after a clip along `n`; `K`, `a` and `b` count the clips that are still possible -/
  | typed (σ : ℝ) (K a b i : Nat) {s v} (P : SP (V2 ℝ)) (p n : V2 ℝ) (h' : ℝ) : σ * σ = 1 → P.v = p - o → Ext M ray σ o p → Path f o p i v →
      ((i = 0 ∧ s = [P]) ∨ ∃ Q : SP (V2 ℝ), s = [P, Q] ∧ closestOnEdge2 Q.v P.v = some v ∧ (p - o).dot Q.v ≤ 0) →
      0 < n.dot ray → n.dot (p - o) = 0 → 0 < turn σ (p - o) n → UpTo M ray σ (sine σ ray n) o → UpTo M ray (-σ) h' o →
      sine σ ray n + h' ≤ K * (1 / (2 * (J : ℝ))) → NoClip M f ray σ a o → NoClip M f ray (-σ) b o → ((i : ℝ) + 1) * v.dot v ≤ B →
      Steps M f ray B J o ((K + (J - a) + (J - b)) * (J + 1) + (J - i)) s v

theorem few {B tolerance w : ℝ} {J i : Nat} (htol : 0 < tolerance) (hJ : B ≤ J * tolerance) (hw : tolerance < w) (h : ((i : ℝ) + 1) * w ≤ B) : i + 1 < J := by
  have h1 : ((i : ℝ) + 1) * tolerance < ((i : ℝ) + 1) * w := mul_lt_mul_of_pos_left hw (by positivity)
  have h2 : ((i : ℝ) + 1) * tolerance < J * tolerance := by linarith
  have h3 := lt_of_mul_lt_mul_right h2 htol.le
  exact_mod_cast h3

/-- After a clip the new support point is first in one of the two senses. -/
theorem clip_ext {o p v : V2 ℝ} (hp : M p) (hv : 0 < v.dot ray) (h0 : v.dot (p - o) = 0) (hall : ∀ m, M m → 0 ≤ v.dot (m - o)) (hne : p - o ≠ 0) {τ : ℝ} (hτ : τ * τ = 1) :
    ∃ σ : ℝ, (σ = τ ∨ σ = -τ) ∧ Ext M ray σ o p ∧ 0 < turn σ (p - o) v := by
  have hv0 : 0 < v.dot v := dot_self_pos2 (by rintro rfl; simp [V2.dot] at hv)
  have hT : turn τ (p - o) v ≠ 0 := by
    intro h
    have := turn_lagrange hτ v (p - o) (p - o)
    rw [h0, zero_mul, zero_add, turn_swap τ (p - o) v, h] at this
    have := mul_pos hv0 (dot_self_pos2 hne)
    linarith
  have main : ∀ σ : ℝ, 0 < turn σ (p - o) v → Ext M ray σ o p := by
    intro σ hσT
    have fr : ∀ c : V2 ℝ, v.dot v * turn σ (p - o) c = v.dot c * turn σ (p - o) v := by
      intro c
      have := turn_frame σ v (p - o) c
      rw [h0, zero_mul, zero_sub, turn_swap σ (p - o) v] at this
      linarith
    refine ⟨hp, fun m hm => ?_, ?_⟩
    · have : 0 ≤ v.dot v * turn σ (p - o) (m - o) := by rw [fr]; exact mul_nonneg (hall m hm) hσT.le
      exact nonneg_of_mul_nonneg_right this hv0
    · have : 0 < v.dot v * turn σ (p - o) ray := by rw [fr]; exact mul_pos hv hσT
      exact pos_of_mul_pos_right this hv0.le
  rcases lt_or_gt_of_ne hT with h | h
  · have : 0 < turn (-τ) (p - o) v := by rw [turn_neg]; linarith
    exact ⟨-τ, .inr rfl, main _ this, this⟩
  · exact ⟨τ, .inl rfl, main _ h, h⟩

theorem noClip_zero (M : V2 ℝ → Prop) (f : V2 ℝ → V2 ℝ → Prop) (ray : V2 ℝ) (σ : ℝ) (o : V2 ℝ) : NoClip M f ray σ 0 o := by
  intro s _ p _ i hi; omega

theorem neg_sq {σ : ℝ} (h : σ * σ = 1) : -σ * -σ = 1 := by linarith

/-- A step that clips. -/
theorem clip_steps (hf : Supports M f) (hfree : ScaleFree f) {B tolerance : ℝ} {J : Nat} (htol : 0 < tolerance) (hJ : B ≤ J * tolerance) {k : Nat} {l : ℝ} (hl0 : 0 ≤ l)
    {s : List (SP (V2 ℝ))} {v : V2 ℝ} (h : Steps M f ray B J (ray * l) k s v) (hv : tolerance < v.dot v) {p : SP (V2 ℝ)} (hp : M p.v) (hmin : ∀ m, M m → v.dot p.v ≤ v.dot m)
    (hvp : l * v.dot ray < v.dot p.v) (hvr : 0 < v.dot ray) (hle : v.dot p.v / v.dot ray ≤ 1) (hB : ∀ (m : V2 ℝ) (l : ℝ), M m → 0 ≤ l → l ≤ 1 → (m - ray * l).dot (m - ray * l) ≤ B) :
    (p.subPoint (ray * (v.dot p.v / v.dot ray))).v = 0 ∨
    ∃ k' < k, Steps M f ray B J (ray * (v.dot p.v / v.dot ray)) k' [p.subPoint (ray * (v.dot p.v / v.dot ray))] (p.subPoint (ray * (v.dot p.v / v.dot ray))).v := by
  set l' := v.dot p.v / v.dot ray with hl'
  have hll : l < l' := by rw [hl', lt_div_iff₀ hvr]; exact hvp
  have hlr : l' * v.dot ray = v.dot p.v := div_mul_cancel₀ _ hvr.ne'
  clear_value l'
  have hsub : (p.subPoint (ray * l')).v = p.v - ray * l' := rfl
  by_cases hz : p.v - ray * l' = 0
  · left; rw [hsub]; exact hz
  right
  have hmove : ray * l' = ray * l + ray * (l' - l) := by ext <;> simp <;> ring
  have hll0 : 0 < l' - l := by linarith
  have hd : ∀ m : V2 ℝ, v.dot (m - ray * l') = v.dot m - l' * v.dot ray := by
    intro m; simp only [V2.dot, V2.sub_x, V2.sub_y, V2.mul_x, V2.mul_y]; ring
  have h0 : v.dot (p.v - ray * l') = 0 := by rw [hd, hlr, sub_self]
  have hall : ∀ m, M m → 0 ≤ v.dot (m - ray * l') := by
    intro m hm; rw [hd, hlr]; linarith [hmin m hm]
  have hpos : ∀ m, M m → 0 < v.dot (m - ray * l) := by
    intro m hm
    have e : v.dot (m - ray * l) = v.dot m - l * v.dot ray := by simp only [V2.dot, V2.sub_x, V2.sub_y, V2.mul_x, V2.mul_y]; ring
    rw [e]; linarith [hmin m hm]
  have hpB : (((0 : Nat) : ℝ) + 1) * (p.v - ray * l').dot (p.v - ray * l') ≤ B := by
    rw [Nat.cast_zero, zero_add, one_mul]; exact hB p.v l' hp (by linarith) hle
  have hzero : ray * l = ray * l + ray * (0 : ℝ) := by ext <;> simp
  -- the first clip
  have first : ∃ k' ≤ 6 * J * (J + 1) + J, Steps M f ray B J (ray * l') k' [p.subPoint (ray * l')] (p.v - ray * l') := by
    obtain ⟨σ, hσ, he, hT⟩ := clip_ext hp hvr h0 hall hz (one_mul (1 : ℝ))
    have hσ1 : σ * σ = 1 := by rcases hσ with rfl | rfl <;> norm_num
    have hJ0 : 0 < J := by
      have h1 := dot_self_pos2 hz
      rw [Nat.cast_zero, zero_add, one_mul] at hpB
      have : (0 : ℝ) < J * tolerance := by linarith
      exact_mod_cast pos_of_mul_pos_left this htol.le
    have hJR : (0 : ℝ) < J := by exact_mod_cast hJ0
    refine ⟨_, ?_, .typed σ (4 * J) 0 0 0 (p.subPoint (ray * l')) p.v v 1 hσ1 rfl he .zero (.inl ⟨rfl, rfl⟩) hvr h0 hT (upTo_clip hσ1 hp hvr h0 hT)
      (fun s _ n hn _ => sine_le_one (neg_sq hσ1) hn) ?_ (noClip_zero _ _ _ _ _) (noClip_zero _ _ _ _ _) hpB⟩
    · simp only [Nat.sub_zero]
      have : (4 * J + J + J) * (J + 1) = 6 * J * (J + 1) := by ring
      omega
    · have h1 := sine_le_one hσ1 hvr
      push_cast
      have : 4 * (J : ℝ) * (1 / (2 * J)) = 2 := by field_simp; norm_num
      linarith
  rw [hsub]
  have expand : (6 * J + 1) * (J + 1) = 6 * J * (J + 1) + (J + 1) := by ring
  cases h with
  | start => obtain ⟨k', h1, h2⟩ := first; exact ⟨k', by omega, h2⟩
  | free i _ hi => obtain ⟨k', h1, h2⟩ := first; exact ⟨k', by omega, h2⟩
  | typed σ K a b i P p₀ n h' hσ hP he hpath hs hn hn0 hnT hup hup' hK ha hb hi =>
    have hiJ := few htol hJ hv hi
    have hJR : (0 : ℝ) < J := by exact_mod_cast (by omega : 0 < J)
    have hfacts := path_facts hσ hf he hpath
    -- the clip needed at least `a` steps
    have hai : a ≤ i := by
      by_contra hn
      have := ha 0 le_rfl p₀ (by rw [← hzero]; exact he) i (by omega) v (by rw [← hzero]; exact hpath)
      rw [← hzero] at this
      obtain ⟨m, hm, h1⟩ := this
      linarith [hpos m hm]
    have hturn : sine σ ray v + 1 / (2 * (J : ℝ)) ≤ sine σ ray n := by
      refine turned hσ hn hvr hn0 hnT hfacts.2.1 ?_ hJR
      have h1 := hB p₀ l he.mem hl0 (by linarith)
      have h2 := mul_lt_mul_of_pos_left hv hJR
      linarith
    have hbound : sine (-σ) ray v ≤ h' := by
      refine hup' 0 le_rfl v hvr fun m hm => ?_
      rw [← hzero]
      exact hpos m hm
    have hsn : ∀ x : V2 ℝ, sine (-σ) ray x = -sine σ ray x := by intro x; unfold sine; rw [turn_neg, neg_div]
    have hc0 : 0 < 1 / (2 * (J : ℝ)) := by positivity
    obtain ⟨σ', hσ', he', hT⟩ := clip_ext hp hvr h0 hall hz hσ
    rcases hσ' with rfl | rfl
    · -- the same sense
      have hK1 : 1 ≤ K := by
        by_contra hn
        obtain rfl : K = 0 := by omega
        rw [Nat.cast_zero, zero_mul] at hK
        rw [hsn] at hbound
        linarith
      refine ⟨_, ?_, .typed σ' (K - 1) a b 0 (p.subPoint (ray * l')) p.v v h' hσ rfl he' .zero (.inl ⟨rfl, rfl⟩) hvr h0 hT (upTo_clip hσ hp hvr h0 hT)
        (by rw [hmove]; exact upTo_move hup' hll0.le) ?_ (by rw [hmove]; exact noClip_move ha hll0.le) (by rw [hmove]; exact noClip_move hb hll0.le) hpB⟩
      · have e : (K + (J - a) + (J - b)) * (J + 1) = (K - 1 + (J - a) + (J - b)) * (J + 1) + (J + 1) := by
          obtain ⟨K, rfl⟩ : ∃ K', K = K' + 1 := ⟨K - 1, by omega⟩
          rw [Nat.add_sub_cancel]; ring
        omega
      · rw [Nat.cast_sub hK1, Nat.cast_one, sub_mul, one_mul]
        linarith
    · -- the other sense
      have hcross : NoClip M f ray σ (i + 1) (ray * l') := by
        rw [hmove]
        refine cross_noClip hσ hf hfree hll0 he hpath hvr hp (by rw [← hmove]; exact h0) ?_
        rw [← hmove]
        rw [turn_neg] at hT
        linarith
      refine ⟨_, ?_, .typed (-σ) K b (i + 1) 0 (p.subPoint (ray * l')) p.v v (sine σ ray n) (neg_sq hσ) rfl he' .zero (.inl ⟨rfl, rfl⟩) hvr h0 hT
        (upTo_clip (neg_sq hσ) hp hvr h0 hT) (by rw [neg_neg, hmove]; exact upTo_move hup hll0.le) (by linarith) (by rw [hmove]; exact noClip_move hb hll0.le)
        (by rw [neg_neg]; exact hcross) hpB⟩
      have e : (K + (J - a) + (J - b)) * (J + 1) = (K + (J - b) + (J - a - 1)) * (J + 1) + (J + 1) := by
        obtain ⟨x, hx⟩ : ∃ x, J - a = x + 1 := ⟨J - a - 1, by omega⟩
        rw [hx, Nat.add_sub_cancel]; ring
      have e2 : (K + (J - b) + (J - (i + 1))) * (J + 1) ≤ (K + (J - b) + (J - a - 1)) * (J + 1) := Nat.mul_le_mul_right _ (by omega)
      omega

/-- A step that adds a point. -/
theorem add_steps {left right : V2 ℝ → Res (V2 ℝ)} (hf : Supports M (Found left right)) {B tolerance : ℝ} {J : Nat} (htol : 0 < tolerance) (hJ : B ≤ J * tolerance) {k : Nat} {o : V2 ℝ}
    {s s' : List (SP (V2 ℝ))} {v c : V2 ℝ} {N : V2 ℝ → Prop} (h : Steps M (Found left right) ray B J o k s v) (hN' : Simp2 N s' c) (hv : tolerance < v.dot v) {p : SP (V2 ℝ)}
    (hp : SP.fromMinkowski left right (-v) = .ok p) (hpB : (p.v - o).dot (p.v - o) ≤ B) (hvp : (p.subPoint o).v.dot v ≤ 0)
    (hc : closest2 (s ++ [p.subPoint o]) = .ok (some c, s')) : c = 0 ∨ ∃ k' < k, Steps M (Found left right) ray B J o k' s' c := by
  have hv0 : 0 < v.dot v := lt_trans htol hv
  by_cases hc0 : c = 0
  · exact .inl hc0
  right
  have hedge : ∀ x y, s' = [x, y] → y.v.dot x.v < x.v.dot x.v := by
    rintro x y rfl
    cases hN' with
    | edge w _ _ _ _ _ h => exact h
    | inside => exact absurd rfl hc0
  cases h with
  | start =>
    have hc : Res.ok (some (p.subPoint o).v, [p.subPoint o]) = .ok (some c, s') := hc
    simp only [Res.ok.injEq, Prod.mk.injEq, Option.some.injEq] at hc
    obtain ⟨rfl, rfl⟩ := hc
    exact ⟨_, by omega, .free 0 (.one _) (by rw [Nat.cast_zero, zero_add, one_mul]; exact hpB)⟩
  | free i hs hi =>
    have hiJ := few htol hJ hv hi
    cases hs with
    | one a =>
      have hc2 : Res.ok (closestOnEdge2 (p.subPoint o).v a.v, [a, p.subPoint o]) = .ok (some c, s') := hc
      clear hc
      simp only [Res.ok.injEq, Prod.mk.injEq] at hc2
      obtain ⟨hc, rfl⟩ := hc2
      obtain ⟨-, -, g1, g2⟩ := closestOnEdge2_spec hc
      have := shorter hv0 hvp g2 g1 hpB (Nat.cast_nonneg i) hi
      exact ⟨_, by omega, .free (i + 1) (.edge hc) (by push_cast; exact this)⟩
    | edge hce =>
      rename_i s0 s1
      rcases edge_step hce hv0 hvp hc hedge with h | ⟨x, hx, rfl, hcx, h0, h1, h2, -⟩
      · exact absurd h hc0
      obtain ⟨-, -, g1, g2⟩ := closestOnEdge2_spec hcx
      have := shorter hv0 hvp h2 g1 hpB (Nat.cast_nonneg i) hi
      exact ⟨_, by omega, .free (i + 1) (.edge hcx) (by push_cast; exact this)⟩
  | typed σ K a b i P p₀ n h' hσ hP he hpath hs hn hn0 hnT hup hup' hK ha hb hi =>
    have hiJ := few htol hJ hv hi
    have hfacts := path_facts hσ hf he hpath
    have hq : Found left right v p.v := ⟨p, hp, rfl⟩
    have hqM := (hf v p.v hv0 hq).1
    have hvq : v.dot (p.v - o) ≤ 0 := by rw [dot_comm2]; exact hvp
    have heq : (p₀ - o).dot (p.v - o) ≤ 0 := quarter_neg hσ (by linarith [hfacts.2.1]) hfacts.1 (he.all _ hqM) hvq
    have finish : closestOnEdge2 (p.subPoint o).v P.v = some c → c.dot c ≤ v.dot c → s' = [P, p.subPoint o] →
        ∃ k' < (K + (J - a) + (J - b)) * (J + 1) + (J - i), Steps M (Found left right) ray B J o k' s' c := by
      rintro hcx h2 rfl
      obtain ⟨-, ⟨t, t0, t1, ht⟩, g1, g2⟩ := closestOnEdge2_spec hcx
      have := shorter hv0 hvp h2 g1 hpB (Nat.cast_nonneg i) hi
      refine ⟨_, ?_, .typed σ K a b (i + 1) P p₀ n h' hσ hP he (.succ (1 - t) hpath hq hvq (by linarith) (by linarith) ?_ ?_ ?_ (dot_self_pos2 hc0))
        (.inr ⟨_, rfl, hcx, heq⟩) hn hn0 hnT hup hup' hK ha hb (by push_cast; exact this)⟩
      · omega
      · rw [ht, hP]
        show p.v - o + (p₀ - o - (p.v - o)) * t = _
        ext <;> simp <;> ring
      · rw [hP] at g2; exact g2
      · exact g1
    rcases hs with ⟨rfl, rfl⟩ | ⟨Q, rfl, hce, heQ⟩
    · cases hpath
      have hc2 : Res.ok (closestOnEdge2 (p.subPoint o).v P.v, [P, p.subPoint o]) = .ok (some c, s') := hc
      clear hc
      simp only [Res.ok.injEq, Prod.mk.injEq] at hc2
      obtain ⟨hc, hs'⟩ := hc2
      obtain ⟨-, -, g1, g2⟩ := closestOnEdge2_spec hc
      exact finish hc (by rw [hP] at g2; exact g2) hs'.symm
    · rcases edge_step hce hv0 hvp hc hedge with h | ⟨x, hx, hs', hcx, h0, h1, h2, -⟩
      · exact absurd h hc0
      rcases hx with rfl | rfl
      · exact finish hcx h2 hs'
      · -- the first point stays in the simplex
        exfalso
        obtain ⟨-, ⟨t, t0, t1, ht⟩, -, -⟩ := closestOnEdge2_spec hcx
        have e : (p₀ - o).dot c = (1 - t) * (p₀ - o).dot (p.v - o) + t * (p₀ - o).dot x.v := by
          rw [ht]
          show (p₀ - o).dot (p.v - o + (x.v - (p.v - o)) * t) = _
          simp only [V2.dot, V2.add_x, V2.add_y, V2.sub_x, V2.sub_y, V2.mul_x, V2.mul_y]; ring
        have a1 := mul_nonpos_of_nonneg_of_nonpos (sub_nonneg.2 t1) heq
        have a2 := mul_nonpos_of_nonneg_of_nonpos t0 heQ
        rw [hP] at h0
        linarith [dot_self_pos2 hc0]

/-- The loop ends. -/
theorem toiLoop_bound {left right : V2 ℝ → Res (V2 ℝ)} (hM : Convex2 M)
    (hs : ∀ v, (0:ℝ) < v.dot v → ∃ p, SP.fromMinkowski left right (-v) = .ok p ∧ M p.v ∧ ∀ m, M m → v.dot p.v ≤ v.dot m) (hfree : ScaleFree (Found left right))
    {tolerance B : ℝ} (htol : 0 < tolerance) (hB : ∀ (m : V2 ℝ) (l : ℝ), M m → 0 ≤ l → l ≤ 1 → (m - ray * l).dot (m - ray * l) ≤ B) {J : Nat} (hJ : B ≤ J * tolerance) :
    ∀ fuel s (st : Impact (V2 ℝ)) k, st.rayOrigin = ray * st.lambda → 0 ≤ st.lambda → st.lambda ≤ 1 → Steps M (Found left right) ray B J st.rayOrigin k s st.v →
      Simp2 (fun m => M (m + st.rayOrigin)) s st.v → k < fuel → ∃ r, toiLoop closest2 tolerance left right ray fuel s st = .ok r := by
  have hf : Supports M (Found left right) := by
    rintro v q hv ⟨p, hp, rfl⟩
    obtain ⟨p', hp', h⟩ := hs v hv
    rw [hp] at hp'
    cases hp'
    exact h
  have hshift : ∀ o : V2 ℝ, Convex2 (fun m => M (m + o)) := by
    intro o a b t ha hb t0 t1
    have := hM _ _ t ha hb t0 t1
    convert this using 1
    ext <;> simp <;> ring
  have hback : ∀ (p : SP (V2 ℝ)) (o : V2 ℝ), (p.subPoint o).v + o = p.v := by intro p o; ext <;> simp [SP.subPoint]
  have small : ∀ fuel s (st : Impact (V2 ℝ)), st.v = 0 → ∃ r, toiLoop closest2 tolerance left right ray fuel s st = .ok r := by
    intro fuel s st h
    unfold toiLoop
    rw [if_neg]
    · exact ⟨_, rfl⟩
    · rw [h, gt_iff_lt, not_lt]
      simpa [Inner.dot, V2.dot] using htol.le
  intro fuel
  induction fuel with
  | zero => intro s st k _ _ _ _ _ h; omega
  | succ fuel ih =>
    intro s st k ho hl0 hl1 hst hsi hlt
    unfold toiLoop
    split
    · rename_i hv
      have hv : tolerance < st.v.dot st.v := hv
      have hv0 : 0 < st.v.dot st.v := lt_trans htol hv
      obtain ⟨p, hp, hpM, hmin⟩ := hs _ hv0
      dsimp only
      rw [hp, Res.bind_ok]
      split
      · rename_i hvp
        split
        · rename_i hvr
          have hvr : 0 < st.v.dot ray := hvr
          have hvp : st.lambda * st.v.dot ray < st.v.dot p.v := hvp
          split
          · exact ⟨_, rfl⟩
          · rename_i hle
            have hle : st.v.dot p.v / st.v.dot ray ≤ 1 := not_lt.1 hle
            rw [closest2_one, Res.bind_ok]
            simp only [Res.ofOption, Res.bind_ok]
            rw [ho] at hst
            have hlam : 0 ≤ st.v.dot p.v / st.v.dot ray := le_trans hl0 (by rw [le_div_iff₀ hvr]; exact hvp.le)
            rcases clip_steps hf hfree htol hJ hl0 hst hv hpM hmin hvp hvr hle hB with h | ⟨k', hk, h⟩
            · exact small _ _ _ h
            · refine ih _ _ k' rfl hlam hle h (.one ?_) (by omega)
              dsimp only
              rw [hback]; exact hpM
        · exact ⟨_, rfl⟩
      · rename_i hvp
        have hle : (p.subPoint st.rayOrigin).v.dot st.v ≤ 0 := by
          rw [not_lt] at hvp
          rw [ho]
          simp only [Inner.dot, V2.dot, SP.subPoint, V2.sub_x, V2.sub_y, V2.mul_x, V2.mul_y] at hvp ⊢
          linarith
        obtain ⟨c, s', hc, hi'⟩ := simp2_add (p := p.subPoint st.rayOrigin) (hshift st.rayOrigin) hsi hv0
          (by show M _; rw [hback]; exact hpM)
          (by
            intro m hm
            have := hmin _ hm
            simp only [V2.dot, SP.subPoint, V2.add_x, V2.add_y, V2.sub_x, V2.sub_y] at this ⊢
            linarith) hle
        rw [hc, Res.bind_ok]
        simp only [Res.ofOption, Res.bind_ok]
        rcases add_steps hf htol hJ hst hi' hv hp (by rw [ho]; exact hB _ _ hpM hl0 hl1) hle hc with rfl | ⟨k', hk, h⟩
        · exact small _ _ _ rfl
        · exact ih _ _ k' ho hl0 hl1 h hi' (by omega)
    · exact ⟨_, rfl⟩

/-! ## C85 -/

theorem found_scale {left right : V2 ℝ → Res (V2 ℝ)} (hl : ∀ (d : V2 ℝ) (k : ℝ), 0 < k → left (d * k) = left d) (hr : ∀ (d : V2 ℝ) (k : ℝ), 0 < k → right (d * k) = right d) :
    ScaleFree (Found left right) := by
  rintro v k q q' - hk ⟨p, hp, rfl⟩ ⟨p', hp', rfl⟩
  have e : -(v * k) = -v * k := by ext <;> simp
  have e2 : -(-v * k) = -(-v) * k := by ext <;> simp
  have : SP.fromMinkowski left right (-(v * k)) = SP.fromMinkowski left right (-v) := by
    unfold SP.fromMinkowski
    rw [e, hl _ _ hk, e2, hr _ _ hk]
  rw [this, hp] at hp'
  cases hp'
  rfl

/-- C85 in 2D for all bounded convex shapes, with or without corners, whose support point depends on the direction only: the number of iterations is
bounded by a number that depends only on the ratio `J` of the squared extent of the problem to the tolerance. The shapes move relative to each other. -/
theorem c85_curved_2d (L R : V2 ℝ → Prop) (hL : Convex2 L) (hR : Convex2 R) {left right : V2 ℝ → Res (V2 ℝ)} (hl : SupportFn2 left L) (hr : SupportFn2 right R)
    (hlk : ∀ (d : V2 ℝ) (k : ℝ), 0 < k → left (d * k) = left d) (hrk : ∀ (d : V2 ℝ) (k : ℝ), 0 < k → right (d * k) = right d)
    {tolerance w : ℝ} (htol : 0 < tolerance) (hw : Within2 L R w) (lStart lEnd rStart rEnd : V2 ℝ) (hmove : rEnd - rStart ≠ lEnd - lStart)
    (J : Nat) (hJ : (w + ((rEnd - rStart) - (lEnd - lStart)).norm) ^ 2 ≤ J * tolerance) (fuel : Nat) (hfuel : 6 * J ^ 2 + 8 * J + 3 ≤ fuel) (place : ℝ → V2 ℝ → V2 ℝ) :
    ∃ r, gjkToi closest2 V2.normalize tolerance fuel left right lStart lEnd rStart rEnd place = .ok r := by
  have hM := mink2_convex hL hR
  set ray := (rEnd - rStart) - (lEnd - lStart) with hray
  have hray0 : ray ≠ 0 := by
    intro h
    apply hmove
    have hx := congrArg V2.x h
    have hy := congrArg V2.y h
    rw [hray] at hx hy
    simp only [V2.sub_x, V2.sub_y, V2.zero_x, V2.zero_y] at hx hy
    ext <;> simp only [V2.sub_x, V2.sub_y] <;> linarith
  have hs : ∀ v : V2 ℝ, (0:ℝ) < v.dot v → ∃ p, SP.fromMinkowski left right (-v) = .ok p ∧ Mink2 L R p.v ∧ ∀ m, Mink2 L R m → v.dot p.v ≤ v.dot m := by
    intro v hv
    obtain ⟨a, ha, h1, h2⟩ := minkowski2 hl hr (neg_ne2 (ne_of_dot2 hv))
    refine ⟨a, ha, ⟨_, _, h1.1, h1.2.1, h1.2.2⟩, fun m hm => ?_⟩
    have := h2 m hm
    simp only [V2.dot, V2.neg_x, V2.neg_y] at this ⊢
    linarith
  have hB : ∀ (m : V2 ℝ) (l : ℝ), Mink2 L R m → 0 ≤ l → l ≤ 1 → (m - ray * l).dot (m - ray * l) ≤ (w + ray.norm) ^ 2 := by
    rintro m l ⟨x, y, hx, hy, rfl⟩ l0 l1
    have h1 := hw x y hx hy
    set m := x - y
    have hm0 : 0 ≤ m.norm := Real.sqrt_nonneg _
    have hr0 : 0 ≤ ray.norm := Real.sqrt_nonneg _
    have hmm := norm_mul_self m
    have hrr := norm_mul_self ray
    have hcs : -(m.dot ray) ≤ m.norm * ray.norm := by
      apply abs_le_of_sq_le_sq' _ (mul_nonneg hm0 hr0) |>.2
      have : (m.norm * ray.norm) ^ 2 = m.dot m * ray.dot ray := by rw [← hmm, ← hrr]; ring
      rw [this]
      simp only [V2.dot]; nlinarith [mul_self_nonneg (m.x * ray.y - m.y * ray.x)]
    have e : (m - ray * l).dot (m - ray * l) = m.dot m + 2 * (l * -(m.dot ray)) + l * l * ray.dot ray := by
      simp only [V2.dot, V2.sub_x, V2.sub_y, V2.mul_x, V2.mul_y]; ring
    rw [e, ← hmm, ← hrr]
    have a1 : l * -(m.dot ray) ≤ m.norm * ray.norm := by
      have := mul_le_mul_of_nonneg_left hcs l0
      have := mul_le_mul_of_nonneg_right l1 (mul_nonneg hm0 hr0)
      linarith
    have a2 : l * l * (ray.norm * ray.norm) ≤ ray.norm * ray.norm := by
      have := mul_le_mul_of_nonneg_right (mul_le_mul l1 l1 l0 zero_le_one) (mul_nonneg hr0 hr0)
      linarith
    have a3 : (m.norm + ray.norm) ^ 2 ≤ (w + ray.norm) ^ 2 := pow_le_pow_left₀ (add_nonneg hm0 hr0) (by linarith) 2
    nlinarith only [a1, a2, a3]
  obtain ⟨p, hp, hpS, -⟩ := minkowski2 hl hr (neg_ne2 hray0)
  unfold gjkToi
  dsimp only
  rw [← hray, hp, Res.bind_ok]
  have e0 : ∀ x : V2 ℝ, x + 0 = x := by intro x; ext <;> simp
  obtain ⟨o, ho⟩ := toiLoop_bound (ray := ray) hM hs (found_scale hlk hrk) htol hB hJ fuel [] ⟨0, 0, 0, p.v⟩ _ (by ext <;> simp) le_rfl zero_le_one (.start _)
    (.empty (by dsimp only; rw [e0]; exact ⟨_, _, hpS.1, hpS.2.1, hpS.2.2⟩))
    (by
      have : (6 * J + 1) * (J + 1) = 6 * J ^ 2 + 7 * J + 1 := by ring
      omega)
  rw [ho, Res.bind_ok]
  cases o <;> exact ⟨_, rfl⟩

theorem maxPoint2_scale (vs : List (V2 ℝ)) (e : V2 ℝ) {k : ℝ} (hk : 0 < k) : maxPoint2 vs (e * k) = maxPoint2 vs e := by
  have hd : ∀ v : V2 ℝ, v.dot (e * k) = v.dot e * k := by intro v; simp only [V2.dot, V2.mul_x, V2.mul_y]; ring
  unfold maxPoint2
  show Prod.fst _ = Prod.fst ((fun x : V2 ℝ × Option ℝ => (x.1, x.2.map (· * k))) _)
  refine congrArg (f := fun y : V2 ℝ × Option ℝ => y.1) ?_
  refine List.foldl_hom (fun x : V2 ℝ × Option ℝ => (x.1, x.2.map (· * k))) (init := ((0 : V2 ℝ), (none : Option ℝ))) (l := vs) (fun x v => ?_)
  obtain ⟨a, o⟩ := x
  cases o with
  | none => simp [hd]
  | some m =>
    by_cases h : m < v.dot e
    · have h' : m * k < v.dot e * k := mul_lt_mul_of_pos_right h hk
      simp [hd, h, h']
    · have h' : ¬ m * k < v.dot e * k := by rw [not_lt] at h ⊢; exact mul_le_mul_of_nonneg_right h hk.le
      simp [hd, h, h']

theorem support_scale (loc : V2 ℝ → V2 ℝ) (hloc : ∀ (e : V2 ℝ) (k : ℝ), 0 < k → loc (e * k) = loc e) (D : Dec2 ℝ) (d : V2 ℝ) {k : ℝ} (hk : 0 < k) :
    support loc D.tr (d * k) = support loc D.tr d := by
  unfold support
  simp only [Dec2.tr]
  by_cases hsc : D.scale = 0
  · rw [if_pos hsc, if_pos hsc]
  · rw [if_neg hsc, if_neg hsc]
    have : D.rot.transpose.apply (d * k / D.scale) = D.rot.transpose.apply (d / D.scale) * k := by
      ext <;> simp [M2.apply] <;> ring
    simp only [Res.ofOption, Res.bind_ok, this, hloc _ _ hk]

theorem supportRound_scale (loc : V2 ℝ → V2 ℝ) (hloc : ∀ e (k : ℝ), 0 < k → loc (e * k) = loc e) (D : Dec2 ℝ) (d : V2 ℝ) {k : ℝ} (hk : 0 < k) :
    supportRound loc D.tr (d * k) = supportRound loc D.tr d := by
  unfold supportRound
  show (do let e ← Res.ofOption (if D.scale = 0 then none else some (D.rot.transpose.apply (d * k / D.scale))); _ : Res (V2 ℝ)) =
    (do let e ← Res.ofOption (if D.scale = 0 then none else some (D.rot.transpose.apply (d / D.scale))); _ : Res (V2 ℝ))
  by_cases hsc : D.scale = 0
  · rw [if_pos hsc, if_pos hsc]
  · rw [if_neg hsc, if_neg hsc]
    have : D.rot.transpose.apply (d * k / D.scale) = D.rot.transpose.apply (d / D.scale) * k := by
      ext <;> simp [M2.apply] <;> ring
    have hz : ∀ e : V2 ℝ, e * k = 0 ↔ e = 0 := fun e => ⟨fun h => by
      have h1 := congrArg V2.x h
      have h2 := congrArg V2.y h
      simp only [V2.mul_x, V2.mul_y, V2.zero_x, V2.zero_y, mul_eq_zero, hk.ne', or_false] at h1 h2
      exact V2.ext h1 h2, fun h => by rw [h]; ext <;> simp⟩
    simp only [Res.ofOption, Res.bind_ok, this, hloc _ _ hk, hz]

/-- The support point of every 2D primitive depends on the direction only. -/
theorem prim2_scale (s : Prim2) (hs : s.Ok) (D : Dec2 ℝ) (d : V2 ℝ) (k : ℝ) (hk : 0 < k) : s.supportPoint D.tr (d * k) = s.supportPoint D.tr d := by
  cases s with
  | particle => rfl
  | line l =>
    refine support_scale _ (fun e k hk => ?_) D d hk
    have hd : (e * k).dot (l.dest - l.origin) = k * e.dot (l.dest - l.origin) := by simp only [V2.dot, V2.mul_x, V2.mul_y]; ring
    unfold lineLocal
    by_cases h : 0 ≤ e.dot (l.dest - l.origin)
    · rw [if_pos h, if_pos (by rw [hd]; exact mul_nonneg hk.le h)]
    · rw [if_neg h, if_neg (by rw [hd, ge_iff_le, not_le]; exact mul_neg_of_pos_of_neg hk (not_le.1 h))]
  | circle c =>
    refine supportRound_scale _ (fun e k hk => ?_) D d hk
    have hn : (e * k).norm = e.norm * k := by
      have h1 : (e * k).dot (e * k) = e.dot e * (k * k) := by simp only [V2.dot, V2.mul_x, V2.mul_y]; ring
      rw [V2.norm, h1, Real.sqrt_mul' _ (mul_self_nonneg k), Real.sqrt_mul_self hk.le, V2.norm]
    have hc : k * (c.radius / (e.norm * k)) = c.radius / e.norm := by
      rw [mul_div_assoc', mul_comm k, mul_div_mul_right _ _ hk.ne']
    unfold V2.normalizeTo
    rw [hn]
    ext
    · simp only [V2.mul_x]; rw [mul_assoc, hc]
    · simp only [V2.mul_y]; rw [mul_assoc, hc]
  | rectangle s => exact support_scale _ (fun e k hk => maxPoint2_scale _ e hk) D d hk
  | square s => exact support_scale _ (fun e k hk => maxPoint2_scale _ e hk) D d hk
  | polygon s =>
    have e : ∀ d, (Prim2.polygon s).supportPoint D.tr d = support (maxPoint2 s.vertices) D.tr d := fun d => if_pos hs.2
    rw [e, e]
    exact support_scale _ (fun e k hk => maxPoint2_scale _ e hk) D d hk

/-- C85 for any two 2D primitives, circles included, that move relative to each other, with any positive tolerance. -/
theorem c85_curved_prim2 (s q : Prim2) (hs : s.Ok) (hq : q.Ok) (D D' E E' : Dec2 ℝ) (hD : D.rot.Orthogonal) (hE : E.rot.Orthogonal) (hDs : D.scale ≠ 0) (hEs : E.scale ≠ 0)
    {tolerance w : ℝ} (htol : 0 < tolerance) (hw : Within2 (Image D.tr s.Points) (Image E.tr q.Points) w)
    (hmove : E'.tr.point 0 - E.tr.point 0 ≠ D'.tr.point 0 - D.tr.point 0) (J : Nat)
    (hJ : (w + ((E'.tr.point 0 - E.tr.point 0) - (D'.tr.point 0 - D.tr.point 0)).norm) ^ 2 ≤ J * tolerance) (fuel : Nat) (hfuel : 6 * J ^ 2 + 8 * J + 3 ≤ fuel) :
    ∃ r, gjkToi closest2 V2.normalize tolerance fuel (s.supportPoint D.tr) (q.supportPoint E.tr) (D.tr.point 0) (D'.tr.point 0) (E.tr.point 0) (E'.tr.point 0)
      (fun t p => (Dec2.translationInterpolate E E' t).tr.point p) = .ok r :=
  c85_curved_2d _ _ (image_convex2 D (prim2_convex s)) (image_convex2 E (prim2_convex q)) (prim2_support s hs D hD hDs) (prim2_support q hq E hE hEs)
    (prim2_scale s hs D) (prim2_scale q hq E) htol hw _ _ _ _ hmove J hJ fuel hfuel _

/-- Two unit circles that move towards each other, with the default tolerance of one millionth. -/
example : ∃ r, gjkToi closest2 V2.normalize (1 / 1000000) (6 * 1000000000 ^ 2 + 8 * 1000000000 + 3) ((Prim2.circle ⟨1⟩).supportPoint (at2 0).tr)
    ((Prim2.circle ⟨1⟩).supportPoint (at2 ⟨10, 1⟩).tr) ((at2 0).tr.point 0) ((at2 0).tr.point 0) ((at2 ⟨10, 1⟩).tr.point 0) ((at2 ⟨0, 1⟩).tr.point 0)
    (fun t p => (Dec2.translationInterpolate (at2 ⟨10, 1⟩) (at2 ⟨0, 1⟩) t).tr.point p) = .ok r := by
  refine c85_curved_prim2 (.circle ⟨1⟩) (.circle ⟨1⟩) zero_le_one zero_le_one (at2 0) (at2 0) (at2 ⟨10, 1⟩) (at2 ⟨0, 1⟩) (by simp [at2, M2.Orthogonal, V2.dot])
    (by simp [at2, M2.Orthogonal, V2.dot]) (by simp [at2]) (by simp [at2]) (by norm_num) (w := 20) ?_ ?_ 1000000000 ?_ _ le_rfl
  · rintro _ _ ⟨⟨x, y⟩, hx, rfl⟩ ⟨⟨u, v⟩, hy, rfl⟩
    have e1 : ∀ x y : ℝ, (⟨x, y⟩ : V2 ℝ).norm ≤ 1 → x * x + y * y ≤ 1 := by
      intro x y h
      have h1 := norm_mul_self (⟨x, y⟩ : V2 ℝ)
      have h2 : 0 ≤ (⟨x, y⟩ : V2 ℝ).norm := Real.sqrt_nonneg _
      simp only [V2.dot] at h1
      nlinarith
    have h1 := e1 x y hx
    have h2 := e1 u v hy
    apply Real.sqrt_le_iff.2
    refine ⟨by norm_num, ?_⟩
    simp [at2, Dec2.tr, M2.apply, V2.dot]
    have b : ∀ a c : ℝ, a * a + c * c ≤ 1 → (-1 ≤ a ∧ a ≤ 1) ∧ -1 ≤ c ∧ c ≤ 1 := by
      intro a c h
      refine ⟨⟨?_, ?_⟩, ?_, ?_⟩ <;> nlinarith [mul_self_nonneg a, mul_self_nonneg c]
    obtain ⟨⟨b1, b2⟩, b3, b4⟩ := b x y h1
    obtain ⟨⟨b5, b6⟩, b7, b8⟩ := b u v h2
    have c1 : (x - (u + 10)) * (x - (u + 10)) ≤ 12 * 12 := by nlinarith
    have c2 : (y - (v + 1)) * (y - (v + 1)) ≤ 3 * 3 := by nlinarith
    linarith
  · intro h
    have := congrArg V2.x h
    simp [at2, Dec2.tr, M2.apply] at this
  · have : ((at2 ⟨0, 1⟩).tr.point 0 - (at2 ⟨10, 1⟩).tr.point 0 - ((at2 0).tr.point 0 - (at2 0).tr.point 0)).norm ≤ 10 := by
      apply Real.sqrt_le_iff.2
      refine ⟨by norm_num, ?_⟩
      simp [at2, Dec2.tr, M2.apply, V2.dot]
      norm_num
    have h0 : 0 ≤ ((at2 ⟨0, 1⟩).tr.point 0 - (at2 ⟨10, 1⟩).tr.point 0 - ((at2 0).tr.point 0 - (at2 0).tr.point 0)).norm := Real.sqrt_nonneg _
    push_cast
    nlinarith
end
end Verif.Minkowski
