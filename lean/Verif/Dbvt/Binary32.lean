import Verif.Dbvt.Rounded
import Mathlib.Data.Set.Finite.Lattice
import Mathlib.Data.Int.Interval
import Mathlib.Data.Int.Log
import Mathlib.Algebra.Order.Round
/-!
# IEEE binary32 as a `Rounding`

The same as Binary64 and Binary64Err, for the numbers of `f32`: a significand of 24 bits, exponents from `-149` to `104`. The library is generic in the scalar and is mostly used with `f32`.
-/
namespace Verif.Dbvt.B32
open Verif Geom Verif.Dbvt
set_option linter.unusedSectionVars false
noncomputable section
open Classical

/-- `r = m * 2^e` with a significand of 24 bits and an exponent in the range of binary32. -/
def Sig (m e : ℤ) (r : ℝ) : Prop := |m| < 2 ^ 24 ∧ -149 ≤ e ∧ e ≤ 104 ∧ r = m * (2 : ℝ) ^ e
/-- The finite numbers of binary32. -/
def Rep32 (r : ℝ) : Prop := ∃ m e, Sig m e r
/-- The last bit of the significand is zero. -/
def Even32 (r : ℝ) : Prop := ∃ m e, Even m ∧ Sig m e r
/-- From here on numbers are rounded to infinity: the largest finite number plus half a unit in its last place. -/
def over32 : ℝ := 2 ^ 128 - 2 ^ 103

theorem rep32_finite : {r | Rep32 r}.Finite := by
  refine ((Set.Finite.prod (Set.finite_Icc (-(2 ^ 24) : ℤ) (2 ^ 24)) (Set.finite_Icc (-149 : ℤ) 104)).image (fun p : ℤ × ℤ => (p.1 : ℝ) * (2 : ℝ) ^ p.2)).subset ?_
  rintro r ⟨m, e, h1, h2, h3, rfl⟩
  have := abs_lt.1 h1
  exact ⟨(m, e), ⟨⟨by linarith [this.1], by linarith [this.2]⟩, h2, h3⟩, rfl⟩

theorem rep32_lt {r : ℝ} (h : Rep32 r) : |r| < over32 := by
  obtain ⟨m, e, h1, h2, h3, rfl⟩ := h
  have hm : |(m : ℝ)| ≤ 2 ^ 24 - 1 := by
    have h : |m| ≤ 2 ^ 24 - 1 := by omega
    have := Int.cast_le (R := ℝ).2 h
    push_cast at this
    linarith
  have he : (2 : ℝ) ^ e ≤ (2 : ℝ) ^ (104 : ℤ) := zpow_le_zpow_right₀ (by norm_num) h3
  have hp : (0 : ℝ) < (2 : ℝ) ^ e := zpow_pos (by norm_num) e
  rw [abs_mul, abs_of_pos hp]
  have h4 : |(m : ℝ)| * (2 : ℝ) ^ e ≤ (2 ^ 24 - 1) * (2 : ℝ) ^ (104 : ℤ) := mul_le_mul hm he hp.le (by norm_num)
  refine lt_of_le_of_lt h4 ?_
  unfold over32
  have e1 : (2 : ℝ) ^ (104 : ℤ) = 2 * 2 ^ 103 := by
    rw [show (104 : ℤ) = ((103 + 1 : ℕ) : ℤ) from rfl, zpow_natCast, pow_succ, mul_comm]
  have e2 : (2 : ℝ) ^ 128 = 2 ^ 25 * 2 ^ 103 := by rw [← pow_add]
  rw [e1, e2]
  have hq : (0 : ℝ) < 2 ^ 103 := by positivity
  generalize (2 : ℝ) ^ 103 = q at hq
  norm_num
  linarith

/-- The numbers of binary32 with the infinities. -/
def F32 : Type := {x : EReal // x = ⊥ ∨ x = ⊤ ∨ ∃ r : ℝ, x = r ∧ Rep32 r}
instance : LinearOrder F32 := inferInstanceAs (LinearOrder {x : EReal // x = ⊥ ∨ x = ⊤ ∨ ∃ r : ℝ, x = r ∧ Rep32 r})

theorem f32_finite : Finite F32 := by
  have h : ({⊥, ⊤} ∪ (fun r : ℝ => (r : EReal)) '' {r | Rep32 r}).Finite := (Set.toFinite _).union (rep32_finite.image _)
  refine Set.Finite.to_subtype (s := {x : EReal | x = ⊥ ∨ x = ⊤ ∨ ∃ r : ℝ, x = r ∧ Rep32 r}) (h.subset ?_)
  rintro x (h | h | ⟨r, rfl, hr⟩)
  · exact Or.inl (by simp [h])
  · exact Or.inl (by simp [h])
  · exact Or.inr ⟨r, hr, rfl⟩
noncomputable instance : Fintype F32 := @Fintype.ofFinite _ f32_finite

/-- A finite number of binary32. -/
def F32.fin (r : ℝ) (h : Rep32 r) : F32 := ⟨r, Or.inr (Or.inr ⟨r, rfl, h⟩)⟩
def F32.bot : F32 := ⟨⊥, Or.inl rfl⟩
def F32.top : F32 := ⟨⊤, Or.inr (Or.inl rfl)⟩

theorem f32_cases (a : F32) : a = F32.bot ∨ a = F32.top ∨ ∃ r, ∃ h : Rep32 r, a = F32.fin r h := by
  obtain ⟨x, h | h | ⟨r, rfl, hr⟩⟩ := a
  · subst h; exact Or.inl rfl
  · subst h; exact Or.inr (Or.inl rfl)
  · exact Or.inr (Or.inr ⟨r, hr, rfl⟩)

/-- `x` is at or above the point from which on numbers are rounded to `a` or above: the middle between `a` and each smaller number; exactly there the even one of the two neighbours is taken. -/
def Reaches (x : EReal) (a : F32) : Prop :=
  a = F32.bot ∨ (a = F32.top ∧ (over32 : EReal) ≤ x) ∨
    ∃ r, ∃ h : Rep32 r, a = F32.fin r h ∧ ((-over32 : ℝ) : EReal) < x ∧ ∀ s, Rep32 s → s < r → (((s + r) / 2 : ℝ) : EReal) < x ∨ ((((s + r) / 2 : ℝ) : EReal) = x ∧ Even32 r)

theorem reaches_mono {x y : EReal} (hxy : x ≤ y) {a : F32} (h : Reaches x a) : Reaches y a := by
  rcases h with h | ⟨h, hx⟩ | ⟨r, hr, h, hx, hs⟩
  · exact Or.inl h
  · exact Or.inr (Or.inl ⟨h, hx.trans hxy⟩)
  · refine Or.inr (Or.inr ⟨r, hr, h, lt_of_lt_of_le hx hxy, fun s hs1 hs2 => ?_⟩)
    rcases hs s hs1 hs2 with h1 | ⟨h1, h2⟩
    · exact Or.inl (lt_of_lt_of_le h1 hxy)
    · rcases lt_or_eq_of_le hxy with h3 | h3
      · exact Or.inl (h1 ▸ h3)
      · exact Or.inr ⟨h1.trans h3, h2⟩

theorem fin_le {r s : ℝ} {hr : Rep32 r} {hs : Rep32 s} : F32.fin r hr ≤ F32.fin s hs ↔ r ≤ s := EReal.coe_le_coe_iff

theorem reaches_self (a : F32) : Reaches a.1 a := by
  rcases f32_cases a with rfl | rfl | ⟨r, hr, rfl⟩
  · exact Or.inl rfl
  · exact Or.inr (Or.inl ⟨rfl, le_top⟩)
  · refine Or.inr (Or.inr ⟨r, hr, rfl, ?_, fun s _ hs => Or.inl ?_⟩)
    · exact EReal.coe_lt_coe_iff.2 (abs_lt.1 (rep32_lt hr)).1
    · exact EReal.coe_lt_coe_iff.2 (by linarith)

theorem reaches_le {a b : F32} (h : Reaches a.1 b) : b ≤ a := by
  rcases h with rfl | ⟨rfl, hx⟩ | ⟨r, hr, rfl, hx, hs⟩
  · exact (bot_le : (⊥ : EReal) ≤ a.1)
  · rcases f32_cases a with rfl | rfl | ⟨r, hr, rfl⟩
    · exact absurd hx (not_le.2 (EReal.bot_lt_coe _))
    · exact le_refl _
    · exact absurd (EReal.coe_le_coe_iff.1 hx) (not_le.2 (abs_lt.1 (rep32_lt hr)).2)
  · rcases f32_cases a with rfl | rfl | ⟨s, hs', rfl⟩
    · exact absurd hx not_lt_bot
    · exact (le_top : (r : EReal) ≤ ⊤)
    · refine fin_le.2 (not_lt.1 fun hlt => ?_)
      rcases hs s hs' hlt with h | ⟨h, -⟩
      · have := EReal.coe_lt_coe_iff.1 h; linarith
      · have := EReal.coe_eq_coe_iff.1 h; linarith

theorem reaches_nonempty (x : EReal) : (Finset.univ.filter (Reaches x)).Nonempty := ⟨F32.bot, by simp [Reaches]⟩

/-- Rounding to nearest, ties to even: the largest number that `x` reaches. -/
def rnd32 (x : EReal) : F32 := (Finset.univ.filter (Reaches x)).max' (reaches_nonempty x)

theorem rnd32_reaches (x : EReal) : Reaches x (rnd32 x) := (Finset.mem_filter.1 (Finset.max'_mem _ (reaches_nonempty x))).2
theorem le_rnd32 {x : EReal} {a : F32} (h : Reaches x a) : a ≤ rnd32 x := Finset.le_max' _ _ (by simp [h])

theorem rep32_zero : Rep32 0 := ⟨0, 0, by norm_num, by norm_num, by norm_num, by simp⟩
theorem rep32_one : Rep32 1 := ⟨1, 0, by norm_num, by norm_num, by norm_num, by simp⟩

/-- IEEE binary32 with rounding to nearest, ties to even. -/
def binary32 : Rounding F32 where
  val a := a.1
  rnd := rnd32
  val_le _ _ := Iff.rfl
  rnd_mono _ _ h := le_rnd32 (reaches_mono h (rnd32_reaches _))
  rnd_val a := le_antisymm (reaches_le (rnd32_reaches _)) (le_rnd32 (reaches_self a))
  zero := F32.fin 0 rep32_zero
  one := F32.fin 1 rep32_one
  inf := F32.top
  ninf := F32.bot
  val_zero := rfl
  val_one := rfl
  val_inf := rfl
  val_ninf := rfl

/-- The rounded number is a nearest one: no number of binary32 is closer. -/
theorem rnd32_nearest {x : ℝ} (hx : |x| < over32) : ∃ a, ∃ ha : Rep32 a, rnd32 x = F32.fin a ha ∧ ∀ b, Rep32 b → |a - x| ≤ |b - x| := by
  have h := rnd32_reaches (x : EReal)
  have hx' := abs_lt.1 hx
  have hne : rnd32 x ≠ F32.bot := by
    intro e
    -- the smallest finite number is reached
    obtain ⟨a, ha, hmin⟩ := Set.exists_min_image {r | Rep32 r} id rep32_finite ⟨0, rep32_zero⟩
    have := le_rnd32 (x := (x : EReal)) (a := F32.fin a ha) (Or.inr (Or.inr ⟨a, ha, rfl, EReal.coe_lt_coe_iff.2 hx'.1, fun s hs hlt => absurd (hmin s hs) (not_le.2 hlt)⟩))
    rw [e] at this
    exact absurd this (not_le.2 (EReal.bot_lt_coe a))
  rcases h with h | ⟨h, h1⟩ | ⟨a, ha, h, -, hs⟩
  · exact absurd h hne
  · exact absurd (EReal.coe_le_coe_iff.1 h1) (not_le.2 hx'.2)
  refine ⟨a, ha, h, fun b hb => ?_⟩
  rcases lt_trichotomy b a with hlt | rfl | hgt
  · have h2 : (b + a) / 2 ≤ x := by
      rcases hs b hb hlt with h2 | ⟨h2, -⟩
      · exact (EReal.coe_lt_coe_iff.1 h2).le
      · exact (EReal.coe_eq_coe_iff.1 h2).le
    have h3 : |b - x| = x - b := by rw [abs_of_nonpos (by linarith)]; ring
    rw [h3]
    exact abs_le.2 ⟨by linarith, by linarith⟩
  · exact le_refl _
  · -- the least number above `a` is not reached
    obtain ⟨c, ⟨hc, hac⟩, hmin⟩ := Set.exists_min_image {r | Rep32 r ∧ a < r} id (rep32_finite.subset fun _ h => h.1) ⟨b, hb, hgt⟩
    have hn : ¬ Reaches (x : EReal) (F32.fin c hc) := by
      intro hr
      have := le_rnd32 hr
      rw [h] at this
      exact absurd (fin_le.1 this) (not_le.2 hac)
    have h2 : x ≤ (a + c) / 2 := by
      by_contra hcon
      push Not at hcon
      refine hn (Or.inr (Or.inr ⟨c, hc, rfl, EReal.coe_lt_coe_iff.2 hx'.1, fun s hs hlt => Or.inl (EReal.coe_lt_coe_iff.2 ?_)⟩))
      have : s ≤ a := by
        by_contra hsa
        have := hmin s ⟨hs, not_le.1 hsa⟩
        simp only [id] at this
        linarith
      linarith
    have hcb : c ≤ b := hmin b ⟨hb, hgt⟩
    have h3 : |b - x| = b - x := abs_of_nonneg (by linarith)
    rw [h3]
    exact abs_le.2 ⟨by linarith, by linarith⟩



theorem rep32_neg {r : ℝ} (h : Rep32 r) : Rep32 (-r) := by
  obtain ⟨m, e, a, b, c, d⟩ := h
  exact ⟨-m, e, by rwa [abs_neg], b, c, by rw [d]; push_cast; ring⟩
theorem even32_neg {r : ℝ} (h : Even32 r) : Even32 (-r) := by
  obtain ⟨m, e, h, a, b, c, d⟩ := h
  exact ⟨-m, e, h.neg, by rwa [abs_neg], b, c, by rw [d]; push_cast; ring⟩

/-- A significand of `2^24` is representable too, with a larger exponent. -/
theorem rep32_le {m e : ℤ} (hm : |m| ≤ 2 ^ 24) (h1 : -149 ≤ e) (h2 : e ≤ 103) : Rep32 (m * (2 : ℝ) ^ e) := by
  rcases lt_or_eq_of_le hm with h | h
  · exact ⟨m, e, h, h1, by omega, rfl⟩
  · rcases abs_eq (by norm_num) |>.1 h with rfl | rfl
    · refine ⟨2 ^ 23, e + 1, by norm_num, by omega, by omega, ?_⟩
      rw [zpow_add₀ (by norm_num)]
      push_cast
      ring
    · refine ⟨-2 ^ 23, e + 1, by norm_num, by omega, by omega, ?_⟩
      rw [zpow_add₀ (by norm_num)]
      push_cast
      ring

/-- Near every number that does not overflow there is one of binary32. -/
theorem rep32_near {x : ℝ} (hx : |x| ≤ (2 : ℝ) ^ (126 : ℤ)) : ∃ b, Rep32 b ∧ |b - x| ≤ (2 : ℝ) ^ (-24 : ℤ) * |x| + (2 : ℝ) ^ (-150 : ℤ) := by
  have two : (1 : ℝ) < 2 := by norm_num
  obtain ⟨e, h1, h2, hup, hlo⟩ : ∃ e : ℤ, -149 ≤ e ∧ e ≤ 103 ∧ |x| < (2 : ℝ) ^ (e + 24) ∧ (e = -149 ∨ (2 : ℝ) ^ (e + 23) ≤ |x|) := by
    by_cases hs : |x| < (2 : ℝ) ^ (-125 : ℤ)
    · exact ⟨-149, le_refl _, by norm_num, by rw [show (-149 + 24 : ℤ) = -125 by norm_num]; exact hs, Or.inl rfl⟩
    · have hp : 0 < |x| := lt_of_lt_of_le (zpow_pos (by norm_num) _) (not_lt.1 hs)
      have l1 : (2 : ℝ) ^ Int.log 2 |x| ≤ |x| := by exact_mod_cast Int.zpow_log_le_self (b := 2) (by norm_num) hp
      have l2 : |x| < (2 : ℝ) ^ (Int.log 2 |x| + 1) := by exact_mod_cast Int.lt_zpow_succ_log_self (b := 2) (by norm_num) |x|
      have a1 : (-125 : ℤ) < Int.log 2 |x| + 1 := (zpow_lt_zpow_iff_right₀ two).1 (lt_of_le_of_lt (not_lt.1 hs) l2)
      have a2 : Int.log 2 |x| ≤ 126 := (zpow_le_zpow_iff_right₀ two).1 (l1.trans hx)
      refine ⟨Int.log 2 |x| - 23, by omega, by omega, ?_, Or.inr ?_⟩
      · rw [show Int.log 2 |x| - 23 + 24 = Int.log 2 |x| + 1 by ring]; exact l2
      · rw [show Int.log 2 |x| - 23 + 23 = Int.log 2 |x| by ring]; exact l1
  have hp : (0 : ℝ) < (2 : ℝ) ^ e := zpow_pos (by norm_num) e
  have hr := abs_sub_round (x / (2 : ℝ) ^ e)
  have hd : |(round (x / (2 : ℝ) ^ e) : ℝ) * (2 : ℝ) ^ e - x| ≤ (2 : ℝ) ^ e / 2 := by
    have : (round (x / (2 : ℝ) ^ e) : ℝ) * (2 : ℝ) ^ e - x = -(x / (2 : ℝ) ^ e - round (x / (2 : ℝ) ^ e)) * (2 : ℝ) ^ e := by
      field_simp
      ring
    rw [this, abs_mul, abs_neg, abs_of_pos hp]
    calc _ ≤ 1 / 2 * (2 : ℝ) ^ e := mul_le_mul_of_nonneg_right hr hp.le
      _ = _ := by ring
  refine ⟨_, rep32_le (m := round (x / (2 : ℝ) ^ e)) ?_ h1 h2, hd.trans ?_⟩
  · have : |x / (2 : ℝ) ^ e| < 2 ^ 24 := by
      rw [abs_div, abs_of_pos hp, div_lt_iff₀ hp]
      rw [zpow_add₀ (by norm_num)] at hup
      norm_num at hup ⊢
      linarith
    obtain ⟨t1, t2⟩ := abs_lt.1 this
    obtain ⟨r1, r2⟩ := abs_le.1 hr
    have b1 : (round (x / (2 : ℝ) ^ e) : ℝ) < ((2 ^ 24 + 1 : ℤ) : ℝ) := by push_cast; linarith
    have b2 : ((-(2 ^ 24 + 1) : ℤ) : ℝ) < (round (x / (2 : ℝ) ^ e) : ℝ) := by push_cast; linarith
    have b1 := Int.cast_lt.1 b1
    have b2 := Int.cast_lt.1 b2
    rw [abs_le]
    constructor <;> omega
  · rcases hlo with rfl | hlo
    · have e1 : (2 : ℝ) ^ (-149 : ℤ) / 2 = (2 : ℝ) ^ (-150 : ℤ) := by
        rw [show (-149 : ℤ) = -150 + 1 by norm_num, zpow_add₀ (by norm_num)]
        simp
      rw [e1]
      have : 0 ≤ (2 : ℝ) ^ (-24 : ℤ) * |x| := mul_nonneg (zpow_pos (by norm_num) _).le (abs_nonneg x)
      linarith
    · have e1 : (2 : ℝ) ^ e / 2 = (2 : ℝ) ^ (-24 : ℤ) * (2 : ℝ) ^ (e + 23) := by
        rw [← zpow_add₀ (by norm_num), show (-24 : ℤ) + (e + 23) = e + (-1) by ring, zpow_add₀ (by norm_num)]
        norm_num
        ring
      rw [e1]
      have := mul_le_mul_of_nonneg_left hlo (zpow_pos (show (0 : ℝ) < 2 by norm_num) (-24)).le
      have : (0 : ℝ) < (2 : ℝ) ^ (-150 : ℤ) := zpow_pos (by norm_num) _
      linarith

theorem lt_over32 {x : ℝ} (hx : |x| ≤ (2 : ℝ) ^ (126 : ℤ)) : |x| < over32 := by
  refine lt_of_le_of_lt hx ?_
  have : Rep32 ((2 : ℝ) ^ (126 : ℤ)) := by
    have := rep32_le (m := 2 ^ 24) (e := 102) (by norm_num) (by norm_num) (by norm_num)
    convert this using 1
    push_cast
    rw [show (126 : ℤ) = 24 + 102 by norm_num, zpow_add₀ (by norm_num)]
    norm_num
  have := rep32_lt this
  rwa [abs_of_pos (zpow_pos (by norm_num) _)] at this

/-- The standard model: the relative error of rounding is at most `2^-24`, apart from underflow. -/
theorem rnd32_err {x : ℝ} (hx : |x| ≤ (2 : ℝ) ^ (126 : ℤ)) :
    ∃ y, ∃ h : Rep32 y, rnd32 x = F32.fin y h ∧ |y - x| ≤ (2 : ℝ) ^ (-24 : ℤ) * |x| + (2 : ℝ) ^ (-150 : ℤ) := by
  obtain ⟨y, hy, he, hn⟩ := rnd32_nearest (lt_over32 hx)
  obtain ⟨b, hb, hd⟩ := rep32_near hx
  exact ⟨y, hy, he, (hn b hb).trans hd⟩

theorem rep32_grid {r : ℝ} (h : Rep32 r) : ∃ k : ℤ, r = k * (2 : ℝ) ^ (-149 : ℤ) := by
  obtain ⟨m, e, -, h1, -, rfl⟩ := h
  obtain ⟨n, hn⟩ := Int.eq_ofNat_of_zero_le (show 0 ≤ e + 149 by omega)
  refine ⟨m * 2 ^ n, ?_⟩
  have : e = (n : ℤ) + (-149) := by omega
  rw [this, zpow_add₀ (by norm_num), zpow_natCast]
  push_cast
  ring

/-- The rounded difference of different numbers is not zero. -/
theorem rnd32_sub_pos {a b : ℝ} (ha : Rep32 a) (hb : Rep32 b) (h : b < a) : F32.fin 0 rep32_zero < rnd32 ((a - b : ℝ) : EReal) := by
  obtain ⟨k, rfl⟩ := rep32_grid ha
  obtain ⟨l, rfl⟩ := rep32_grid hb
  have hp : (0 : ℝ) < (2 : ℝ) ^ (-149 : ℤ) := zpow_pos (by norm_num) _
  have hkl : l < k := by
    have := lt_of_mul_lt_mul_right h hp.le
    exact_mod_cast this
  have hr : Rep32 ((2 : ℝ) ^ (-149 : ℤ)) := ⟨1, -149, by norm_num, by norm_num, by norm_num, by simp⟩
  have h1 : F32.fin _ hr ≤ rnd32 ((k * (2 : ℝ) ^ (-149 : ℤ) - l * (2 : ℝ) ^ (-149 : ℤ) : ℝ) : EReal) := by
    rw [← binary32.rnd_val (F32.fin _ hr)]
    refine binary32.rnd_mono ?_
    show (((2 : ℝ) ^ (-149 : ℤ) : ℝ) : EReal) ≤ _
    rw [EReal.coe_le_coe_iff, ← sub_mul]
    have : (1 : ℝ) ≤ k - l := by
      have : l + 1 ≤ k := hkl
      have : ((l + 1 : ℤ) : ℝ) ≤ k := by exact_mod_cast this
      push_cast at this
      linarith
    nlinarith
  refine lt_of_lt_of_le ?_ h1
  show ((0 : ℝ) : EReal) < (((2 : ℝ) ^ (-149 : ℤ) : ℝ) : EReal)
  exact EReal.coe_lt_coe_iff.2 hp

/-! ## Rounding and the change of sign -/

theorem step_le {m n e f : ℤ} (hef : e ≤ f) (h : (m : ℝ) * (2 : ℝ) ^ e < n * (2 : ℝ) ^ f) : ∃ l : ℤ, (n : ℝ) * (2 : ℝ) ^ f = l * (2 : ℝ) ^ e ∧ m + 1 ≤ l ∧ (Even n → Even l) := by
  obtain ⟨k, hk⟩ := Int.eq_ofNat_of_zero_le (show 0 ≤ f - e by omega)
  have e1 : (n : ℝ) * (2 : ℝ) ^ f = ((n * 2 ^ k : ℤ) : ℝ) * (2 : ℝ) ^ e := by
    rw [show f = (k : ℤ) + e by omega, zpow_add₀ (by norm_num), zpow_natCast]
    push_cast
    ring
  refine ⟨n * 2 ^ k, e1, ?_, fun hn => hn.mul_right _⟩
  rw [e1] at h
  have := lt_of_mul_lt_mul_right h (zpow_pos (by norm_num) e).le
  exact_mod_cast this

/-- Between two even numbers there is another number. -/
theorem even_between {r y : ℝ} (hr : Even32 r) (hy : Even32 y) (h : r < y) : ∃ z, Rep32 z ∧ r < z ∧ z < y := by
  have H : ∀ {m n e f : ℤ} {r y : ℝ}, Even m → Even n → Sig m e r → Sig n f y → r < y → e ≤ f → ∃ z, Rep32 z ∧ r < z ∧ z < y := by
    intro m n e f r y hm hn s1 s2 h hef
    obtain ⟨m1, m2, m3, rfl⟩ := s1
    obtain ⟨n1, n2, n3, rfl⟩ := s2
    obtain ⟨l, hl, h1, h2⟩ := step_le hef h
    have hp : (0 : ℝ) < (2 : ℝ) ^ e := zpow_pos (by norm_num) e
    obtain ⟨a, rfl⟩ := hm
    obtain ⟨b, rfl⟩ := h2 hn
    refine ⟨((a + a + 1 : ℤ) : ℝ) * (2 : ℝ) ^ e, ⟨_, e, ?_, m2, m3, rfl⟩, ?_, ?_⟩
    · rw [abs_lt] at m1 ⊢
      norm_num at m1 ⊢
      constructor <;> omega
    · refine mul_lt_mul_of_pos_right ?_ hp
      push_cast; linarith
    · rw [hl]
      refine mul_lt_mul_of_pos_right ?_ hp
      have : a + a + 1 < b + b := by omega
      exact_mod_cast this
  have neg : ∀ {m e : ℤ} {r : ℝ}, Sig m e r → Sig (-m) e (-r) := by
    rintro m e r ⟨a, b, c, rfl⟩
    exact ⟨by rwa [abs_neg], b, c, by push_cast; ring⟩
  obtain ⟨m, e, hm, s1⟩ := hr
  obtain ⟨n, f, hn, s2⟩ := hy
  rcases le_total e f with hef | hef
  · exact H hm hn s1 s2 h hef
  · obtain ⟨z, hz, h1, h2⟩ := H hn.neg hm.neg (neg s2) (neg s1) (by linarith) hef
    exact ⟨-z, rep32_neg hz, by linarith, by linarith⟩

theorem odd_next_aux {m n e f : ℤ} {r y : ℝ} (s1 : Sig m e r) (s2 : Sig n f y) (hr : ¬ Even32 r) (hy : ¬ Even32 y) (h : r < y) (hef : e ≤ f) : ∃ z, Rep32 z ∧ r < z ∧ z < y := by
  obtain ⟨m1, m2, m3, rfl⟩ := s1
  obtain ⟨n1, n2, n3, rfl⟩ := s2
  obtain ⟨l, hl, h1, -⟩ := step_le hef h
  have hp : (0 : ℝ) < (2 : ℝ) ^ e := zpow_pos (by norm_num) e
  have hodd : ¬ Even m := fun hm => hr ⟨m, e, hm, m1, m2, m3, rfl⟩
  have heven : Even (m + 1) := by
    rw [Int.even_add_one]
    exact hodd
  have hz : Even32 (((m + 1 : ℤ) : ℝ) * (2 : ℝ) ^ e) := by
    by_cases hb : |m + 1| < 2 ^ 24
    · exact ⟨m + 1, e, heven, hb, m2, m3, rfl⟩
    · have hm : m + 1 = 2 ^ 24 := by
        rw [abs_lt] at m1 hb
        norm_num at m1 hb ⊢
        omega
      rw [hm]
      rcases lt_or_eq_of_le m3 with h3 | rfl
      · refine ⟨2 ^ 23, e + 1, by decide, by norm_num, by omega, by omega, ?_⟩
        rw [zpow_add₀ (by norm_num)]
        push_cast
        ring
      · exfalso
        have hf : f = 104 := by omega
        subst hf
        have := lt_of_mul_lt_mul_right h hp.le
        have : m < n := by exact_mod_cast this
        rw [abs_lt] at n1
        norm_num at n1 hm
        omega
  have hzr : Rep32 (((m + 1 : ℤ) : ℝ) * (2 : ℝ) ^ e) := by
    obtain ⟨a, b, -, c⟩ := hz
    exact ⟨a, b, c⟩
  refine ⟨_, hzr, mul_lt_mul_of_pos_right (by push_cast; linarith) hp, ?_⟩
  have hle : ((m + 1 : ℤ) : ℝ) * (2 : ℝ) ^ e ≤ n * (2 : ℝ) ^ f := by
    rw [hl]
    refine mul_le_mul_of_nonneg_right ?_ hp.le
    exact_mod_cast h1
  refine lt_of_le_of_ne hle fun h => hy ?_
  rw [← h]
  exact hz
/-- Between two odd numbers there is another number. -/
theorem odd_between {r y : ℝ} (r1 : Rep32 r) (y1 : Rep32 y) (hr : ¬ Even32 r) (hy : ¬ Even32 y) (h : r < y) : ∃ z, Rep32 z ∧ r < z ∧ z < y := by
  obtain ⟨m, e, s1⟩ := r1
  obtain ⟨n, f, s2⟩ := y1
  rcases le_total e f with hef | hef
  · exact odd_next_aux s1 s2 hr hy h hef
  · have neg : ∀ {m e : ℤ} {r : ℝ}, Sig m e r → Sig (-m) e (-r) := by
      rintro m e r ⟨a, b, c, rfl⟩
      exact ⟨by rwa [abs_neg], b, c, by push_cast; ring⟩
    have ev : ∀ {r : ℝ}, ¬ Even32 r → ¬ Even32 (-r) := fun h h' => h (by have := even32_neg h'; rwa [neg_neg] at this)
    obtain ⟨z, hz, h1, h2⟩ := odd_next_aux (neg s2) (neg s1) (ev hy) (ev hr) (by linarith) hef
    exact ⟨-z, rep32_neg hz, by linarith, by linarith⟩

theorem fin_inj {r s : ℝ} {hr : Rep32 r} {hs : Rep32 s} (h : F32.fin r hr = F32.fin s hs) : r = s := le_antisymm (fin_le.1 h.le) (fin_le.1 h.ge)

/-- What it means to be reached or not, for a tie between neighbours. -/
theorem tie_reached {x r s : ℝ} {hr : Rep32 r} (h : rnd32 (x : EReal) = F32.fin r hr) (hs : Rep32 s) (hlt : s < r) (hx : x = (s + r) / 2) : Even32 r := by
  have := rnd32_reaches (x : EReal)
  rw [h] at this
  rcases this with h | ⟨h, -⟩ | ⟨r', hr', h, -, h2⟩
  · exact absurd h fun e => by
      have : (r : EReal) = ⊥ := congrArg Subtype.val e
      exact EReal.coe_ne_bot _ this
  · exact absurd h fun e => by
      have : (r : EReal) = ⊤ := congrArg Subtype.val e
      exact EReal.coe_ne_top _ this
  · obtain rfl := fin_inj h
    rcases h2 s hs hlt with h3 | ⟨-, h3⟩
    · have := EReal.coe_lt_coe_iff.1 h3
      linarith
    · exact h3
theorem tie_not_reached {x r t : ℝ} {hr : Rep32 r} (hx' : |x| < over32) (h : rnd32 (x : EReal) = F32.fin r hr) (ht : Rep32 t) (hlt : r < t) (hx : x = (r + t) / 2)
    (hadj : ∀ z, Rep32 z → r < z → z < t → False) : ¬ Even32 t := by
  intro hev
  have : Reaches (x : EReal) (F32.fin t ht) := by
    refine Or.inr (Or.inr ⟨t, ht, rfl, EReal.coe_lt_coe_iff.2 (abs_lt.1 hx').1, fun s hs hst => ?_⟩)
    rcases lt_trichotomy s r with h1 | rfl | h1
    · exact Or.inl (EReal.coe_lt_coe_iff.2 (by linarith))
    · exact Or.inr ⟨by rw [hx], hev⟩
    · exact (hadj s hs h1 hst).elim
  have := le_rnd32 this
  rw [h] at this
  exact absurd (fin_le.1 this) (not_le.2 hlt)

/-- **Rounding to nearest, ties to even, commutes with the change of sign.** -/
theorem rnd32_neg {x : ℝ} (hx : |x| < over32) : ∃ r, ∃ h : Rep32 r, rnd32 (x : EReal) = F32.fin r h ∧ rnd32 ((-x : ℝ) : EReal) = F32.fin (-r) (rep32_neg h) := by
  obtain ⟨r, hr, e1, n1⟩ := rnd32_nearest hx
  have hx' : |-x| < over32 := by rwa [abs_neg]
  obtain ⟨w, hw, e2, n2⟩ := rnd32_nearest hx'
  refine ⟨r, hr, e1, ?_⟩
  suffices h : w = -r by
    subst h
    exact e2
  by_contra hne
  -- both are nearest to `x`, so `x` is in the middle and nothing is between
  have n3 : ∀ b, Rep32 b → |-w - x| ≤ |b - x| := by
    intro b hb
    have := n2 (-b) (rep32_neg hb)
    rwa [show w - -x = -(-w - x) by ring, show -b - -x = -(b - x) by ring, abs_neg, abs_neg] at this
  have heq : |r - x| = |-w - x| := le_antisymm (n1 _ (rep32_neg hw)) (n3 _ hr)
  have hmid : x = (r + -w) / 2 := by
    rcases abs_eq_abs.1 heq with h | h
    · exact absurd (show w = -r by linarith) hne
    · linarith
  have hadj : ∀ z, Rep32 z → ¬ (r < z ∧ z < -w) ∧ ¬ (-w < z ∧ z < r) := by
    intro z hz
    have := n1 z hz
    constructor
    · rintro ⟨a, b⟩
      rw [abs_of_nonpos (by linarith)] at this
      rcases abs_cases (z - x) with ⟨h, -⟩ | ⟨h, -⟩ <;> linarith
    · rintro ⟨a, b⟩
      rw [abs_of_nonneg (by linarith)] at this
      rcases abs_cases (z - x) with ⟨h, -⟩ | ⟨h, -⟩ <;> linarith
  rcases lt_trichotomy r (-w) with h | h | h
  · have h1 := tie_not_reached hx e1 (rep32_neg hw) h hmid fun z hz a b => (hadj z hz).1 ⟨a, b⟩
    have h2 := tie_not_reached hx' e2 (rep32_neg hr) (by linarith) (by linarith) fun z hz a b => (hadj (-z) (rep32_neg hz)).1 ⟨by linarith, by linarith⟩
    have h3 : ¬ Even32 r := fun h => h2 (even32_neg h)
    obtain ⟨z, hz, a, b⟩ := odd_between hr (rep32_neg hw) h3 h1 h
    exact (hadj z hz).1 ⟨a, b⟩
  · exact hne (by linarith)
  · have h1 := tie_reached e1 (rep32_neg hw) h (by linarith)
    have h2 := tie_reached e2 (rep32_neg hr) (by linarith) (by linarith)
    obtain ⟨z, hz, a, b⟩ := even_between (even32_neg h2) h1 h
    exact (hadj z hz).2 ⟨a, b⟩
end
end Verif.Dbvt.B32
