import Verif.Dbvt.Rounded
import Mathlib.Data.Set.Finite.Lattice
import Mathlib.Data.Int.Interval
/-!
# IEEE binary64 as a `Rounding`

The numbers of `f64` and rounding to nearest, ties to even, as an instance of the structure `Rounding` that C99 is about: so C99 speaks about `f64`. The sign of zero and NaN are
left out, as in `Rounding`.
-/
namespace Verif.Dbvt
open Verif Geom
set_option linter.unusedSectionVars false
noncomputable section
open Classical

/-- `r = m * 2^e` with a significand of 53 bits and an exponent in the range of binary64. -/
def Sig (m e : ℤ) (r : ℝ) : Prop := |m| < 2 ^ 53 ∧ -1074 ≤ e ∧ e ≤ 971 ∧ r = m * (2 : ℝ) ^ e
/-- The finite numbers of binary64. -/
def Rep64 (r : ℝ) : Prop := ∃ m e, Sig m e r
/-- The last bit of the significand is zero. -/
def Even64 (r : ℝ) : Prop := ∃ m e, Even m ∧ Sig m e r
/-- From here on numbers are rounded to infinity: the largest finite number plus half a unit in its last place. -/
def over64 : ℝ := 2 ^ 1024 - 2 ^ 970

theorem rep64_finite : {r | Rep64 r}.Finite := by
  refine ((Set.Finite.prod (Set.finite_Icc (-(2 ^ 53) : ℤ) (2 ^ 53)) (Set.finite_Icc (-1074 : ℤ) 971)).image (fun p : ℤ × ℤ => (p.1 : ℝ) * (2 : ℝ) ^ p.2)).subset ?_
  rintro r ⟨m, e, h1, h2, h3, rfl⟩
  have := abs_lt.1 h1
  exact ⟨(m, e), ⟨⟨by linarith [this.1], by linarith [this.2]⟩, h2, h3⟩, rfl⟩

theorem rep64_lt {r : ℝ} (h : Rep64 r) : |r| < over64 := by
  obtain ⟨m, e, h1, h2, h3, rfl⟩ := h
  have hm : |(m : ℝ)| ≤ 2 ^ 53 - 1 := by
    have h : |m| ≤ 2 ^ 53 - 1 := by omega
    have := Int.cast_le (R := ℝ).2 h
    push_cast at this
    linarith
  have he : (2 : ℝ) ^ e ≤ (2 : ℝ) ^ (971 : ℤ) := zpow_le_zpow_right₀ (by norm_num) h3
  have hp : (0 : ℝ) < (2 : ℝ) ^ e := zpow_pos (by norm_num) e
  rw [abs_mul, abs_of_pos hp]
  have h4 : |(m : ℝ)| * (2 : ℝ) ^ e ≤ (2 ^ 53 - 1) * (2 : ℝ) ^ (971 : ℤ) := mul_le_mul hm he hp.le (by norm_num)
  refine lt_of_le_of_lt h4 ?_
  unfold over64
  have e1 : (2 : ℝ) ^ (971 : ℤ) = 2 * 2 ^ 970 := by
    rw [show (971 : ℤ) = ((970 + 1 : ℕ) : ℤ) from rfl, zpow_natCast, pow_succ, mul_comm]
  have e2 : (2 : ℝ) ^ 1024 = 2 ^ 54 * 2 ^ 970 := by rw [← pow_add]
  rw [e1, e2]
  have hq : (0 : ℝ) < 2 ^ 970 := by positivity
  generalize (2 : ℝ) ^ 970 = q at hq
  norm_num
  linarith

/-- The numbers of binary64 with the infinities. -/
def F64 : Type := {x : EReal // x = ⊥ ∨ x = ⊤ ∨ ∃ r : ℝ, x = r ∧ Rep64 r}
instance : LinearOrder F64 := inferInstanceAs (LinearOrder {x : EReal // x = ⊥ ∨ x = ⊤ ∨ ∃ r : ℝ, x = r ∧ Rep64 r})

theorem f64_finite : Finite F64 := by
  have h : ({⊥, ⊤} ∪ (fun r : ℝ => (r : EReal)) '' {r | Rep64 r}).Finite := (Set.toFinite _).union (rep64_finite.image _)
  refine Set.Finite.to_subtype (s := {x : EReal | x = ⊥ ∨ x = ⊤ ∨ ∃ r : ℝ, x = r ∧ Rep64 r}) (h.subset ?_)
  rintro x (h | h | ⟨r, rfl, hr⟩)
  · exact Or.inl (by simp [h])
  · exact Or.inl (by simp [h])
  · exact Or.inr ⟨r, hr, rfl⟩
noncomputable instance : Fintype F64 := @Fintype.ofFinite _ f64_finite

/-- A finite number of binary64. -/
def F64.fin (r : ℝ) (h : Rep64 r) : F64 := ⟨r, Or.inr (Or.inr ⟨r, rfl, h⟩)⟩
def F64.bot : F64 := ⟨⊥, Or.inl rfl⟩
def F64.top : F64 := ⟨⊤, Or.inr (Or.inl rfl)⟩

theorem f64_cases (a : F64) : a = F64.bot ∨ a = F64.top ∨ ∃ r, ∃ h : Rep64 r, a = F64.fin r h := by
  obtain ⟨x, h | h | ⟨r, rfl, hr⟩⟩ := a
  · subst h; exact Or.inl rfl
  · subst h; exact Or.inr (Or.inl rfl)
  · exact Or.inr (Or.inr ⟨r, hr, rfl⟩)

/-- `x` is at or above the point from which on numbers are rounded to `a` or above: the middle between `a` and each smaller number; exactly there the even one of the two neighbours is taken. -/
def Reaches (x : EReal) (a : F64) : Prop :=
  a = F64.bot ∨ (a = F64.top ∧ (over64 : EReal) ≤ x) ∨
    ∃ r, ∃ h : Rep64 r, a = F64.fin r h ∧ ((-over64 : ℝ) : EReal) < x ∧ ∀ s, Rep64 s → s < r → (((s + r) / 2 : ℝ) : EReal) < x ∨ ((((s + r) / 2 : ℝ) : EReal) = x ∧ Even64 r)

theorem reaches_mono {x y : EReal} (hxy : x ≤ y) {a : F64} (h : Reaches x a) : Reaches y a := by
  rcases h with h | ⟨h, hx⟩ | ⟨r, hr, h, hx, hs⟩
  · exact Or.inl h
  · exact Or.inr (Or.inl ⟨h, hx.trans hxy⟩)
  · refine Or.inr (Or.inr ⟨r, hr, h, lt_of_lt_of_le hx hxy, fun s hs1 hs2 => ?_⟩)
    rcases hs s hs1 hs2 with h1 | ⟨h1, h2⟩
    · exact Or.inl (lt_of_lt_of_le h1 hxy)
    · rcases lt_or_eq_of_le hxy with h3 | h3
      · exact Or.inl (h1 ▸ h3)
      · exact Or.inr ⟨h1.trans h3, h2⟩

theorem fin_le {r s : ℝ} {hr : Rep64 r} {hs : Rep64 s} : F64.fin r hr ≤ F64.fin s hs ↔ r ≤ s := EReal.coe_le_coe_iff

theorem reaches_self (a : F64) : Reaches a.1 a := by
  rcases f64_cases a with rfl | rfl | ⟨r, hr, rfl⟩
  · exact Or.inl rfl
  · exact Or.inr (Or.inl ⟨rfl, le_top⟩)
  · refine Or.inr (Or.inr ⟨r, hr, rfl, ?_, fun s _ hs => Or.inl ?_⟩)
    · exact EReal.coe_lt_coe_iff.2 (abs_lt.1 (rep64_lt hr)).1
    · exact EReal.coe_lt_coe_iff.2 (by linarith)

theorem reaches_le {a b : F64} (h : Reaches a.1 b) : b ≤ a := by
  rcases h with rfl | ⟨rfl, hx⟩ | ⟨r, hr, rfl, hx, hs⟩
  · exact (bot_le : (⊥ : EReal) ≤ a.1)
  · rcases f64_cases a with rfl | rfl | ⟨r, hr, rfl⟩
    · exact absurd hx (not_le.2 (EReal.bot_lt_coe _))
    · exact le_refl _
    · exact absurd (EReal.coe_le_coe_iff.1 hx) (not_le.2 (abs_lt.1 (rep64_lt hr)).2)
  · rcases f64_cases a with rfl | rfl | ⟨s, hs', rfl⟩
    · exact absurd hx not_lt_bot
    · exact (le_top : (r : EReal) ≤ ⊤)
    · refine fin_le.2 (not_lt.1 fun hlt => ?_)
      rcases hs s hs' hlt with h | ⟨h, -⟩
      · have := EReal.coe_lt_coe_iff.1 h; linarith
      · have := EReal.coe_eq_coe_iff.1 h; linarith

theorem reaches_nonempty (x : EReal) : (Finset.univ.filter (Reaches x)).Nonempty := ⟨F64.bot, by simp [Reaches]⟩

/-- Rounding to nearest, ties to even: the largest number that `x` reaches. -/
def rnd64 (x : EReal) : F64 := (Finset.univ.filter (Reaches x)).max' (reaches_nonempty x)

theorem rnd64_reaches (x : EReal) : Reaches x (rnd64 x) := (Finset.mem_filter.1 (Finset.max'_mem _ (reaches_nonempty x))).2
theorem le_rnd64 {x : EReal} {a : F64} (h : Reaches x a) : a ≤ rnd64 x := Finset.le_max' _ _ (by simp [h])

theorem rep64_zero : Rep64 0 := ⟨0, 0, by norm_num, by norm_num, by norm_num, by simp⟩
theorem rep64_one : Rep64 1 := ⟨1, 0, by norm_num, by norm_num, by norm_num, by simp⟩

/-- IEEE binary64 with rounding to nearest, ties to even. -/
def binary64 : Rounding F64 where
  val a := a.1
  rnd := rnd64
  val_le _ _ := Iff.rfl
  rnd_mono _ _ h := le_rnd64 (reaches_mono h (rnd64_reaches _))
  rnd_val a := le_antisymm (reaches_le (rnd64_reaches _)) (le_rnd64 (reaches_self a))
  zero := F64.fin 0 rep64_zero
  one := F64.fin 1 rep64_one
  inf := F64.top
  ninf := F64.bot
  val_zero := rfl
  val_one := rfl
  val_inf := rfl
  val_ninf := rfl

/-- The rounded number is a nearest one: no number of binary64 is closer. -/
theorem rnd64_nearest {x : ℝ} (hx : |x| < over64) : ∃ a, ∃ ha : Rep64 a, rnd64 x = F64.fin a ha ∧ ∀ b, Rep64 b → |a - x| ≤ |b - x| := by
  have h := rnd64_reaches (x : EReal)
  have hx' := abs_lt.1 hx
  have hne : rnd64 x ≠ F64.bot := by
    intro e
    -- the smallest finite number is reached
    obtain ⟨a, ha, hmin⟩ := Set.exists_min_image {r | Rep64 r} id rep64_finite ⟨0, rep64_zero⟩
    have := le_rnd64 (x := (x : EReal)) (a := F64.fin a ha) (Or.inr (Or.inr ⟨a, ha, rfl, EReal.coe_lt_coe_iff.2 hx'.1, fun s hs hlt => absurd (hmin s hs) (not_le.2 hlt)⟩))
    rw [e] at this
    exact absurd this (not_le.2 (EReal.bot_lt_coe a))
  rcases h with h | ⟨h, h1⟩ | ⟨a, ha, h, -, hs⟩
  · exact absurd h hne
  · exact absurd (EReal.coe_le_coe_iff.1 h1) (not_le.2 hx'.2)
  refine ⟨a, ha, h, fun b hb => ?_⟩
  rcases lt_trichotomy b a with hlt | rfl | hgt
  · have h2 : (b + a) / 2 ≤ x := by
      rcases hs b hb hlt with h2 | ⟨h2, -⟩
      · exact (EReal.coe_lt_coe_iff.1 h2).le
      · exact (EReal.coe_eq_coe_iff.1 h2).le
    have h3 : |b - x| = x - b := by rw [abs_of_nonpos (by linarith)]; ring
    rw [h3]
    exact abs_le.2 ⟨by linarith, by linarith⟩
  · exact le_refl _
  · -- the least number above `a` is not reached
    obtain ⟨c, ⟨hc, hac⟩, hmin⟩ := Set.exists_min_image {r | Rep64 r ∧ a < r} id (rep64_finite.subset fun _ h => h.1) ⟨b, hb, hgt⟩
    have hn : ¬ Reaches (x : EReal) (F64.fin c hc) := by
      intro hr
      have := le_rnd64 hr
      rw [h] at this
      exact absurd (fin_le.1 this) (not_le.2 hac)
    have h2 : x ≤ (a + c) / 2 := by
      by_contra hcon
      push Not at hcon
      refine hn (Or.inr (Or.inr ⟨c, hc, rfl, EReal.coe_lt_coe_iff.2 hx'.1, fun s hs hlt => Or.inl (EReal.coe_lt_coe_iff.2 ?_)⟩))
      have : s ≤ a := by
        by_contra hsa
        have := hmin s ⟨hs, not_le.1 hsa⟩
        simp only [id] at this
        linarith
      linarith
    have hcb : c ≤ b := hmin b ⟨hb, hgt⟩
    have h3 : |b - x| = b - x := abs_of_nonneg (by linarith)
    rw [h3]
    exact abs_le.2 ⟨by linarith, by linarith⟩

end
end Verif.Dbvt
