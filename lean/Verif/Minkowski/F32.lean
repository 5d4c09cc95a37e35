import Verif.Minkowski.RoundedMiss
import Verif.Dbvt.Binary32
/-!
# `f32` is an instance of the standard model of rounded arithmetic

The same as for `f64`: relative error `2^-24`, underflow `2^-150`, up to `2^126`; and what stays on a grid.
-/
namespace Verif.Minkowski
open Verif Geom Primitive
open Verif.Dbvt (Rounding)
open Verif.Dbvt.B32 (F32 binary32 Rep32 rnd32 rnd32_nearest lt_over32 over32)
set_option linter.unusedSectionVars false
noncomputable section
open Classical

theorem rep_of_rep32 {x : ℝ} (h : Rep32 x) : Rep binary32 x := by
  unfold Rep toF
  have : binary32.rnd (x : EReal) = Dbvt.B32.F32.fin x h := binary32.rnd_val (Dbvt.B32.F32.fin x h)
  rw [this]
  rfl

/-- `f32::EPSILON` -/
def eps32 : ℝ := (2 : ℝ) ^ (-23 : ℤ)

theorem rep32_of_rep {x : ℝ} (h : Rep binary32 x) : Rep32 x := by
  unfold Rep at h
  rcases Dbvt.B32.f32_cases (toF binary32 x) with e | e | ⟨r, hr, e⟩
  · rw [e] at h
    exact absurd h.symm (EReal.coe_ne_bot x)
  · rw [e] at h
    exact absurd h.symm (EReal.coe_ne_top x)
  · rw [e] at h
    have : r = x := EReal.coe_injective h
    rwa [← this]
theorem toF32 {r : ℝ} (h : Rep32 r) : toF binary32 r = Dbvt.B32.F32.fin r h := binary32.rnd_val (Dbvt.B32.F32.fin r h)

/-- `f32` is the standard model with unit roundoff `2^-24`, underflow `2^-150`, up to `2^126`. -/
theorem std32 : Std binary32 ((2 : ℝ) ^ (-24 : ℤ)) ((2 : ℝ) ^ (-150 : ℤ)) ((2 : ℝ) ^ (126 : ℤ)) where
  u0 := (zpow_pos (by norm_num) _).le
  u1 := by
    have : (2 : ℝ) ^ (-24 : ℤ) ≤ (2 : ℝ) ^ (-4 : ℤ) := zpow_le_zpow_right₀ (by norm_num) (by norm_num)
    norm_num at this ⊢
  η0 := (zpow_pos (by norm_num) _).le
  η1 := by
    have h : (2 : ℝ) ^ (-150 : ℤ) ≤ (2 : ℝ) ^ (-4 : ℤ) := zpow_le_zpow_right₀ (by norm_num) (by norm_num)
    have e : (2 : ℝ) ^ (-4 : ℤ) = 1 / 16 := by norm_num
    rwa [e] at h
  two := rep_of_rep32 ⟨2, 0, by norm_num, by norm_num, by norm_num, by norm_num⟩
  err x hx := by
    obtain ⟨y, hy, e, d⟩ := Dbvt.B32.rnd32_err hx
    exact ⟨y, rep_of_rep32 hy, by rw [toF32 hy]; exact e, d⟩
  odd x y hx hy e := by
    obtain ⟨r, hr, e1, e2⟩ := Dbvt.B32.rnd32_neg (lt_over32 hx)
    have hy' := rep32_of_rep hy
    rw [toF32 hy'] at e
    have : r = y := by
      have e3 : toF binary32 x = Dbvt.B32.F32.fin r hr := e1
      rw [e] at e3
      exact (Dbvt.B32.fin_inj e3).symm
    subst this
    exact ⟨rep_of_rep32 (Dbvt.B32.rep32_neg hr), by rw [toF32 (Dbvt.B32.rep32_neg hr)]; exact e2⟩
  sub x y hx hy e := by
    have hx' := rep32_of_rep hx
    have hy' := rep32_of_rep hy
    have ez : toF binary32 0 = Dbvt.B32.F32.fin 0 Dbvt.B32.rep32_zero := toF32 Dbvt.B32.rep32_zero
    rw [ez] at e
    rcases lt_trichotomy x y with h | h | h
    · exfalso
      have h1 := Dbvt.B32.rnd32_sub_pos hy' hx' h
      have e' : Dbvt.B32.rnd32 ((x - y : ℝ) : EReal) = Dbvt.B32.F32.fin 0 Dbvt.B32.rep32_zero := e
      by_cases hb : |x - y| < 1
      · -- the other difference is the negation
        obtain ⟨r, hr, e1, e2⟩ := Dbvt.B32.rnd32_neg (x := x - y) (hb.trans (by
          have := Dbvt.B32.rep32_lt Dbvt.B32.rep32_one
          rwa [abs_one] at this))
        rw [e'] at e1
        have hr0 : r = 0 := (Dbvt.B32.fin_inj e1).symm
        subst hr0
        rw [neg_sub] at e2
        rw [e2] at h1
        exact absurd (Dbvt.B32.fin_le.2 (by simp)) (not_le.2 h1)
      · have h2 : x - y ≤ -1 := by
          rw [abs_of_neg (by linarith)] at hb
          linarith
        have h3 : Dbvt.B32.rnd32 ((x - y : ℝ) : EReal) ≤ Dbvt.B32.rnd32 ((-1 : ℝ) : EReal) := binary32.rnd_mono (EReal.coe_le_coe_iff.2 h2)
        have h4 : Dbvt.B32.rnd32 ((-1 : ℝ) : EReal) = Dbvt.B32.F32.fin (-1) (Dbvt.B32.rep32_neg Dbvt.B32.rep32_one) := toF32 (Dbvt.B32.rep32_neg Dbvt.B32.rep32_one)
        rw [e', h4] at h3
        have := Dbvt.B32.fin_le.1 h3
        norm_num at this
    · exact h
    · exfalso
      have h1 := Dbvt.B32.rnd32_sub_pos hx' hy' h
      exact absurd e h1.ne'

/-- `f32` keeps multiples of `2⁻ᵏʲ` while `k j ≤ 149`. -/
theorem keeps32 {k J : ℕ} (hk : k * J ≤ 149) : KeepsGr binary32 (2 ^ k) J := by
  intro j hj x hx
  show GrE (2 ^ k) j (rnd32 (x : EReal)).1
  rcases Dbvt.B32.f32_cases (rnd32 (x : EReal)) with e | e | ⟨r, hr, e⟩
  · rw [e]
    exact Or.inr (Or.inl rfl)
  · rw [e]
    exact Or.inl rfl
  · rw [e]
    refine GrE.real ?_
    obtain ⟨m, hm⟩ := hx
    have hkj : k * j ≤ 149 := (Nat.mul_le_mul_left k hj).trans hk
    have hp : (0 : ℝ) < 2 ^ (k * j) := by positivity
    have hN : ((2 ^ k : ℕ) : ℝ) ^ j = 2 ^ (k * j) := by push_cast; rw [pow_mul]
    rw [hN] at hm
    have ex : x = m * (2 : ℝ) ^ (-((k * j : ℕ) : ℤ)) := by
      rw [zpow_neg, zpow_natCast, ← hm]
      field_simp
    by_cases hs : |m| ≤ 2 ^ 24
    · -- the number is representable
      have rx : Rep32 x := by
        rw [ex]
        exact Dbvt.B32.rep32_le hs (by omega) (by omega)
      have : rnd32 (x : EReal) = Dbvt.B32.F32.fin x rx := binary32.rnd_val (Dbvt.B32.F32.fin x rx)
      rw [e] at this
      have : r = x := Dbvt.B32.fin_inj this
      rw [this]
      exact ⟨m, by rw [hN, hm]⟩
    · -- the number is so large that all representable numbers near it are multiples
      push Not at hs
      have hq : (0 : ℝ) < (2 : ℝ) ^ (-((k * j : ℕ) : ℤ)) := zpow_pos (by norm_num) _
      have big : (2 : ℝ) ^ 24 * (2 : ℝ) ^ (-((k * j : ℕ) : ℤ)) ≤ |r| := by
        have mono : ∀ {a : ℝ} (ha : Rep32 a), a ≤ x → a ≤ r := by
          intro a ha h
          have h1 : rnd32 (a : EReal) ≤ rnd32 (x : EReal) := binary32.rnd_mono (EReal.coe_le_coe_iff.2 h)
          have h2 : rnd32 (a : EReal) = Dbvt.B32.F32.fin a ha := binary32.rnd_val (Dbvt.B32.F32.fin a ha)
          rw [h2, e] at h1
          exact Dbvt.B32.fin_le.1 h1
        have anti : ∀ {a : ℝ} (ha : Rep32 a), x ≤ a → r ≤ a := by
          intro a ha h
          have h1 : rnd32 (x : EReal) ≤ rnd32 (a : EReal) := binary32.rnd_mono (EReal.coe_le_coe_iff.2 h)
          have h2 : rnd32 (a : EReal) = Dbvt.B32.F32.fin a ha := binary32.rnd_val (Dbvt.B32.F32.fin a ha)
          rw [h2, e] at h1
          exact Dbvt.B32.fin_le.1 h1
        have rb : Rep32 (((2 ^ 24 : ℤ) : ℝ) * (2 : ℝ) ^ (-((k * j : ℕ) : ℤ))) := Dbvt.B32.rep32_le (by norm_num) (by omega) (by omega)
        have hb : ((2 ^ 24 : ℤ) : ℝ) = 2 ^ 24 := by norm_num
        rcases lt_abs.1 hs with h | h
        · have h' : ((2 ^ 24 : ℤ) : ℝ) < m := by exact_mod_cast h
          have := mono rb (by rw [ex]; exact mul_le_mul_of_nonneg_right h'.le hq.le)
          rw [hb] at this
          exact this.trans (le_abs_self r)
        · have h' : ((2 ^ 24 : ℤ) : ℝ) < -(m : ℝ) := by exact_mod_cast h
          have := anti (Dbvt.B32.rep32_neg rb) (by
            rw [ex]
            have := mul_le_mul_of_nonneg_right h'.le hq.le
            linarith)
          rw [hb] at this
          have := neg_le_abs r
          linarith
      obtain ⟨n, f, h1, h2, h3, rfl⟩ := hr
      have hf0 : (0 : ℝ) < (2 : ℝ) ^ f := zpow_pos (by norm_num) f
      have hf : -((k * j : ℕ) : ℤ) ≤ f := by
        by_contra hlt
        push Not at hlt
        have h4 : (2 : ℝ) ^ f < (2 : ℝ) ^ (-((k * j : ℕ) : ℤ)) := zpow_lt_zpow_right₀ (by norm_num) hlt
        rw [abs_mul, abs_of_pos hf0] at big
        have h5 : |(n : ℝ)| < 2 ^ 24 := by
          have : ((|n| : ℤ) : ℝ) < ((2 ^ 24 : ℤ) : ℝ) := Int.cast_lt.2 h1
          rw [Int.cast_abs] at this
          have hb : ((2 ^ 24 : ℤ) : ℝ) = 2 ^ 24 := by norm_num
          rwa [hb] at this
        have h6 : |(n : ℝ)| * (2 : ℝ) ^ f ≤ 2 ^ 24 * (2 : ℝ) ^ f := mul_le_mul_of_nonneg_right h5.le hf0.le
        have h7 : (2 : ℝ) ^ 24 * (2 : ℝ) ^ f < 2 ^ 24 * (2 : ℝ) ^ (-((k * j : ℕ) : ℤ)) := mul_lt_mul_of_pos_left h4 (by positivity)
        linarith
      obtain ⟨l, hl⟩ := Int.eq_ofNat_of_zero_le (show 0 ≤ f + ((k * j : ℕ) : ℤ) by omega)
      refine ⟨n * 2 ^ l, ?_⟩
      rw [hN, mul_assoc, ← zpow_natCast, ← zpow_add₀ (by norm_num), hl]
      push_cast
      rw [zpow_natCast]
end
end Verif.Minkowski
