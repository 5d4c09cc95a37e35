import Verif.Dbvt.Binary64
import Mathlib.Data.Int.Log
import Mathlib.Algebra.Order.Round
/-!
# The error of rounding in binary64

The standard model of floating-point arithmetic, for the instance `binary64`: the relative error is at most `2^-53`, apart from underflow; rounding commutes with the change of sign; the rounded
difference of two different numbers is not zero.
-/
namespace Verif.Dbvt
open Verif Geom
noncomputable section
open Classical

theorem rep64_neg {r : ℝ} (h : Rep64 r) : Rep64 (-r) := by
  obtain ⟨m, e, a, b, c, d⟩ := h
  exact ⟨-m, e, by rwa [abs_neg], b, c, by rw [d]; push_cast; ring⟩
theorem even64_neg {r : ℝ} (h : Even64 r) : Even64 (-r) := by
  obtain ⟨m, e, h, a, b, c, d⟩ := h
  exact ⟨-m, e, h.neg, by rwa [abs_neg], b, c, by rw [d]; push_cast; ring⟩

/-- A significand of `2^53` is representable too, with a larger exponent. -/
theorem rep64_le {m e : ℤ} (hm : |m| ≤ 2 ^ 53) (h1 : -1074 ≤ e) (h2 : e ≤ 970) : Rep64 (m * (2 : ℝ) ^ e) := by
  rcases lt_or_eq_of_le hm with h | h
  · exact ⟨m, e, h, h1, by omega, rfl⟩
  · rcases abs_eq (by norm_num) |>.1 h with rfl | rfl
    · refine ⟨2 ^ 52, e + 1, by norm_num, by omega, by omega, ?_⟩
      rw [zpow_add₀ (by norm_num)]
      push_cast
      ring
    · refine ⟨-2 ^ 52, e + 1, by norm_num, by omega, by omega, ?_⟩
      rw [zpow_add₀ (by norm_num)]
      push_cast
      ring

/-- Near every number that does not overflow there is one of binary64. -/
theorem rep64_near {x : ℝ} (hx : |x| ≤ (2 : ℝ) ^ (1022 : ℤ)) : ∃ b, Rep64 b ∧ |b - x| ≤ (2 : ℝ) ^ (-53 : ℤ) * |x| + (2 : ℝ) ^ (-1075 : ℤ) := by
  have two : (1 : ℝ) < 2 := by norm_num
  obtain ⟨e, h1, h2, hup, hlo⟩ : ∃ e : ℤ, -1074 ≤ e ∧ e ≤ 970 ∧ |x| < (2 : ℝ) ^ (e + 53) ∧ (e = -1074 ∨ (2 : ℝ) ^ (e + 52) ≤ |x|) := by
    by_cases hs : |x| < (2 : ℝ) ^ (-1021 : ℤ)
    · exact ⟨-1074, le_refl _, by norm_num, by norm_num; simpa using hs, Or.inl rfl⟩
    · have hp : 0 < |x| := lt_of_lt_of_le (zpow_pos (by norm_num) _) (not_lt.1 hs)
      have l1 : (2 : ℝ) ^ Int.log 2 |x| ≤ |x| := by exact_mod_cast Int.zpow_log_le_self (b := 2) (by norm_num) hp
      have l2 : |x| < (2 : ℝ) ^ (Int.log 2 |x| + 1) := by exact_mod_cast Int.lt_zpow_succ_log_self (b := 2) (by norm_num) |x|
      have a1 : (-1021 : ℤ) < Int.log 2 |x| + 1 := (zpow_lt_zpow_iff_right₀ two).1 (lt_of_le_of_lt (not_lt.1 hs) l2)
      have a2 : Int.log 2 |x| ≤ 1022 := (zpow_le_zpow_iff_right₀ two).1 (l1.trans hx)
      refine ⟨Int.log 2 |x| - 52, by omega, by omega, ?_, Or.inr ?_⟩
      · rw [show Int.log 2 |x| - 52 + 53 = Int.log 2 |x| + 1 by ring]; exact l2
      · rw [show Int.log 2 |x| - 52 + 52 = Int.log 2 |x| by ring]; exact l1
  have hp : (0 : ℝ) < (2 : ℝ) ^ e := zpow_pos (by norm_num) e
  have hr := abs_sub_round (x / (2 : ℝ) ^ e)
  have hd : |(round (x / (2 : ℝ) ^ e) : ℝ) * (2 : ℝ) ^ e - x| ≤ (2 : ℝ) ^ e / 2 := by
    have : (round (x / (2 : ℝ) ^ e) : ℝ) * (2 : ℝ) ^ e - x = -(x / (2 : ℝ) ^ e - round (x / (2 : ℝ) ^ e)) * (2 : ℝ) ^ e := by
      field_simp
      ring
    rw [this, abs_mul, abs_neg, abs_of_pos hp]
    calc _ ≤ 1 / 2 * (2 : ℝ) ^ e := mul_le_mul_of_nonneg_right hr hp.le
      _ = _ := by ring
  refine ⟨_, rep64_le (m := round (x / (2 : ℝ) ^ e)) ?_ h1 h2, hd.trans ?_⟩
  · have : |x / (2 : ℝ) ^ e| < 2 ^ 53 := by
      rw [abs_div, abs_of_pos hp, div_lt_iff₀ hp]
      rw [zpow_add₀ (by norm_num)] at hup
      norm_num at hup ⊢
      linarith
    obtain ⟨t1, t2⟩ := abs_lt.1 this
    obtain ⟨r1, r2⟩ := abs_le.1 hr
    have b1 : (round (x / (2 : ℝ) ^ e) : ℝ) < ((2 ^ 53 + 1 : ℤ) : ℝ) := by push_cast; linarith
    have b2 : ((-(2 ^ 53 + 1) : ℤ) : ℝ) < (round (x / (2 : ℝ) ^ e) : ℝ) := by push_cast; linarith
    have b1 := Int.cast_lt.1 b1
    have b2 := Int.cast_lt.1 b2
    rw [abs_le]
    constructor <;> omega
  · rcases hlo with rfl | hlo
    · have e1 : (2 : ℝ) ^ (-1074 : ℤ) / 2 = (2 : ℝ) ^ (-1075 : ℤ) := by
        rw [show (-1074 : ℤ) = -1075 + 1 by norm_num, zpow_add₀ (by norm_num)]
        simp
      rw [e1]
      have : 0 ≤ (2 : ℝ) ^ (-53 : ℤ) * |x| := mul_nonneg (zpow_pos (by norm_num) _).le (abs_nonneg x)
      linarith
    · have e1 : (2 : ℝ) ^ e / 2 = (2 : ℝ) ^ (-53 : ℤ) * (2 : ℝ) ^ (e + 52) := by
        rw [← zpow_add₀ (by norm_num), show (-53 : ℤ) + (e + 52) = e + (-1) by ring, zpow_add₀ (by norm_num)]
        norm_num
        ring
      rw [e1]
      have := mul_le_mul_of_nonneg_left hlo (zpow_pos (show (0 : ℝ) < 2 by norm_num) (-53)).le
      have : (0 : ℝ) < (2 : ℝ) ^ (-1075 : ℤ) := zpow_pos (by norm_num) _
      linarith

theorem lt_over64 {x : ℝ} (hx : |x| ≤ (2 : ℝ) ^ (1022 : ℤ)) : |x| < over64 := by
  refine lt_of_le_of_lt hx ?_
  have : Rep64 ((2 : ℝ) ^ (1022 : ℤ)) := by
    have := rep64_le (m := 2 ^ 53) (e := 969) (by norm_num) (by norm_num) (by norm_num)
    convert this using 1
    push_cast
    rw [show (1022 : ℤ) = 53 + 969 by norm_num, zpow_add₀ (by norm_num)]
    norm_num
  have := rep64_lt this
  rwa [abs_of_pos (zpow_pos (by norm_num) _)] at this

/-- The standard model: the relative error of rounding is at most `2^-53`, apart from underflow. -/
theorem rnd64_err {x : ℝ} (hx : |x| ≤ (2 : ℝ) ^ (1022 : ℤ)) :
    ∃ y, ∃ h : Rep64 y, rnd64 x = F64.fin y h ∧ |y - x| ≤ (2 : ℝ) ^ (-53 : ℤ) * |x| + (2 : ℝ) ^ (-1075 : ℤ) := by
  obtain ⟨y, hy, he, hn⟩ := rnd64_nearest (lt_over64 hx)
  obtain ⟨b, hb, hd⟩ := rep64_near hx
  exact ⟨y, hy, he, (hn b hb).trans hd⟩

theorem rep64_grid {r : ℝ} (h : Rep64 r) : ∃ k : ℤ, r = k * (2 : ℝ) ^ (-1074 : ℤ) := by
  obtain ⟨m, e, -, h1, -, rfl⟩ := h
  obtain ⟨n, hn⟩ := Int.eq_ofNat_of_zero_le (show 0 ≤ e + 1074 by omega)
  refine ⟨m * 2 ^ n, ?_⟩
  have : e = (n : ℤ) + (-1074) := by omega
  rw [this, zpow_add₀ (by norm_num), zpow_natCast]
  push_cast
  ring

/-- The rounded difference of different numbers is not zero. -/
theorem rnd64_sub_pos {a b : ℝ} (ha : Rep64 a) (hb : Rep64 b) (h : b < a) : F64.fin 0 rep64_zero < rnd64 ((a - b : ℝ) : EReal) := by
  obtain ⟨k, rfl⟩ := rep64_grid ha
  obtain ⟨l, rfl⟩ := rep64_grid hb
  have hp : (0 : ℝ) < (2 : ℝ) ^ (-1074 : ℤ) := zpow_pos (by norm_num) _
  have hkl : l < k := by
    have := lt_of_mul_lt_mul_right h hp.le
    exact_mod_cast this
  have hr : Rep64 ((2 : ℝ) ^ (-1074 : ℤ)) := ⟨1, -1074, by norm_num, by norm_num, by norm_num, by simp⟩
  have h1 : F64.fin _ hr ≤ rnd64 ((k * (2 : ℝ) ^ (-1074 : ℤ) - l * (2 : ℝ) ^ (-1074 : ℤ) : ℝ) : EReal) := by
    rw [← binary64.rnd_val (F64.fin _ hr)]
    refine binary64.rnd_mono ?_
    show (((2 : ℝ) ^ (-1074 : ℤ) : ℝ) : EReal) ≤ _
    rw [EReal.coe_le_coe_iff, ← sub_mul]
    have : (1 : ℝ) ≤ k - l := by
      have : l + 1 ≤ k := hkl
      have : ((l + 1 : ℤ) : ℝ) ≤ k := by exact_mod_cast this
      push_cast at this
      linarith
    nlinarith
  refine lt_of_lt_of_le ?_ h1
  show ((0 : ℝ) : EReal) < (((2 : ℝ) ^ (-1074 : ℤ) : ℝ) : EReal)
  exact EReal.coe_lt_coe_iff.2 hp

/-! ## Rounding and the change of sign -/

theorem step_le {m n e f : ℤ} (hef : e ≤ f) (h : (m : ℝ) * (2 : ℝ) ^ e < n * (2 : ℝ) ^ f) : ∃ l : ℤ, (n : ℝ) * (2 : ℝ) ^ f = l * (2 : ℝ) ^ e ∧ m + 1 ≤ l ∧ (Even n → Even l) := by
  obtain ⟨k, hk⟩ := Int.eq_ofNat_of_zero_le (show 0 ≤ f - e by omega)
  have e1 : (n : ℝ) * (2 : ℝ) ^ f = ((n * 2 ^ k : ℤ) : ℝ) * (2 : ℝ) ^ e := by
    rw [show f = (k : ℤ) + e by omega, zpow_add₀ (by norm_num), zpow_natCast]
    push_cast
    ring
  refine ⟨n * 2 ^ k, e1, ?_, fun hn => hn.mul_right _⟩
  rw [e1] at h
  have := lt_of_mul_lt_mul_right h (zpow_pos (by norm_num) e).le
  exact_mod_cast this

/-- Between two even numbers there is another number. -/
theorem even_between {r y : ℝ} (hr : Even64 r) (hy : Even64 y) (h : r < y) : ∃ z, Rep64 z ∧ r < z ∧ z < y := by
  have H : ∀ {m n e f : ℤ} {r y : ℝ}, Even m → Even n → Sig m e r → Sig n f y → r < y → e ≤ f → ∃ z, Rep64 z ∧ r < z ∧ z < y := by
    intro m n e f r y hm hn s1 s2 h hef
    obtain ⟨m1, m2, m3, rfl⟩ := s1
    obtain ⟨n1, n2, n3, rfl⟩ := s2
    obtain ⟨l, hl, h1, h2⟩ := step_le hef h
    have hp : (0 : ℝ) < (2 : ℝ) ^ e := zpow_pos (by norm_num) e
    obtain ⟨a, rfl⟩ := hm
    obtain ⟨b, rfl⟩ := h2 hn
    refine ⟨((a + a + 1 : ℤ) : ℝ) * (2 : ℝ) ^ e, ⟨_, e, ?_, m2, m3, rfl⟩, ?_, ?_⟩
    · rw [abs_lt] at m1 ⊢
      norm_num at m1 ⊢
      constructor <;> omega
    · refine mul_lt_mul_of_pos_right ?_ hp
      push_cast; linarith
    · rw [hl]
      refine mul_lt_mul_of_pos_right ?_ hp
      have : a + a + 1 < b + b := by omega
      exact_mod_cast this
  have neg : ∀ {m e : ℤ} {r : ℝ}, Sig m e r → Sig (-m) e (-r) := by
    rintro m e r ⟨a, b, c, rfl⟩
    exact ⟨by rwa [abs_neg], b, c, by push_cast; ring⟩
  obtain ⟨m, e, hm, s1⟩ := hr
  obtain ⟨n, f, hn, s2⟩ := hy
  rcases le_total e f with hef | hef
  · exact H hm hn s1 s2 h hef
  · obtain ⟨z, hz, h1, h2⟩ := H hn.neg hm.neg (neg s2) (neg s1) (by linarith) hef
    exact ⟨-z, rep64_neg hz, by linarith, by linarith⟩

theorem odd_next_aux {m n e f : ℤ} {r y : ℝ} (s1 : Sig m e r) (s2 : Sig n f y) (hr : ¬ Even64 r) (hy : ¬ Even64 y) (h : r < y) (hef : e ≤ f) : ∃ z, Rep64 z ∧ r < z ∧ z < y := by
  obtain ⟨m1, m2, m3, rfl⟩ := s1
  obtain ⟨n1, n2, n3, rfl⟩ := s2
  obtain ⟨l, hl, h1, -⟩ := step_le hef h
  have hp : (0 : ℝ) < (2 : ℝ) ^ e := zpow_pos (by norm_num) e
  have hodd : ¬ Even m := fun hm => hr ⟨m, e, hm, m1, m2, m3, rfl⟩
  have heven : Even (m + 1) := by
    rw [Int.even_add_one]
    exact hodd
  have hz : Even64 (((m + 1 : ℤ) : ℝ) * (2 : ℝ) ^ e) := by
    by_cases hb : |m + 1| < 2 ^ 53
    · exact ⟨m + 1, e, heven, hb, m2, m3, rfl⟩
    · have hm : m + 1 = 2 ^ 53 := by
        rw [abs_lt] at m1 hb
        norm_num at m1 hb ⊢
        omega
      rw [hm]
      rcases lt_or_eq_of_le m3 with h3 | rfl
      · refine ⟨2 ^ 52, e + 1, by decide, by norm_num, by omega, by omega, ?_⟩
        rw [zpow_add₀ (by norm_num)]
        push_cast
        ring
      · exfalso
        have hf : f = 971 := by omega
        subst hf
        have := lt_of_mul_lt_mul_right h hp.le
        have : m < n := by exact_mod_cast this
        rw [abs_lt] at n1
        norm_num at n1 hm
        omega
  have hzr : Rep64 (((m + 1 : ℤ) : ℝ) * (2 : ℝ) ^ e) := by
    obtain ⟨a, b, -, c⟩ := hz
    exact ⟨a, b, c⟩
  refine ⟨_, hzr, mul_lt_mul_of_pos_right (by push_cast; linarith) hp, ?_⟩
  have hle : ((m + 1 : ℤ) : ℝ) * (2 : ℝ) ^ e ≤ n * (2 : ℝ) ^ f := by
    rw [hl]
    refine mul_le_mul_of_nonneg_right ?_ hp.le
    exact_mod_cast h1
  refine lt_of_le_of_ne hle fun h => hy ?_
  rw [← h]
  exact hz
/-- Between two odd numbers there is another number. -/
theorem odd_between {r y : ℝ} (r1 : Rep64 r) (y1 : Rep64 y) (hr : ¬ Even64 r) (hy : ¬ Even64 y) (h : r < y) : ∃ z, Rep64 z ∧ r < z ∧ z < y := by
  obtain ⟨m, e, s1⟩ := r1
  obtain ⟨n, f, s2⟩ := y1
  rcases le_total e f with hef | hef
  · exact odd_next_aux s1 s2 hr hy h hef
  · have neg : ∀ {m e : ℤ} {r : ℝ}, Sig m e r → Sig (-m) e (-r) := by
      rintro m e r ⟨a, b, c, rfl⟩
      exact ⟨by rwa [abs_neg], b, c, by push_cast; ring⟩
    have ev : ∀ {r : ℝ}, ¬ Even64 r → ¬ Even64 (-r) := fun h h' => h (by have := even64_neg h'; rwa [neg_neg] at this)
    obtain ⟨z, hz, h1, h2⟩ := odd_next_aux (neg s2) (neg s1) (ev hy) (ev hr) (by linarith) hef
    exact ⟨-z, rep64_neg hz, by linarith, by linarith⟩

theorem fin_inj {r s : ℝ} {hr : Rep64 r} {hs : Rep64 s} (h : F64.fin r hr = F64.fin s hs) : r = s := le_antisymm (fin_le.1 h.le) (fin_le.1 h.ge)

/-- What it means to be reached or not, for a tie between neighbours. -/
theorem tie_reached {x r s : ℝ} {hr : Rep64 r} (h : rnd64 (x : EReal) = F64.fin r hr) (hs : Rep64 s) (hlt : s < r) (hx : x = (s + r) / 2) : Even64 r := by
  have := rnd64_reaches (x : EReal)
  rw [h] at this
  rcases this with h | ⟨h, -⟩ | ⟨r', hr', h, -, h2⟩
  · exact absurd h fun e => by
      have : (r : EReal) = ⊥ := congrArg Subtype.val e
      exact EReal.coe_ne_bot _ this
  · exact absurd h fun e => by
      have : (r : EReal) = ⊤ := congrArg Subtype.val e
      exact EReal.coe_ne_top _ this
  · obtain rfl := fin_inj h
    rcases h2 s hs hlt with h3 | ⟨-, h3⟩
    · have := EReal.coe_lt_coe_iff.1 h3
      linarith
    · exact h3
theorem tie_not_reached {x r t : ℝ} {hr : Rep64 r} (hx' : |x| < over64) (h : rnd64 (x : EReal) = F64.fin r hr) (ht : Rep64 t) (hlt : r < t) (hx : x = (r + t) / 2)
    (hadj : ∀ z, Rep64 z → r < z → z < t → False) : ¬ Even64 t := by
  intro hev
  have : Reaches (x : EReal) (F64.fin t ht) := by
    refine Or.inr (Or.inr ⟨t, ht, rfl, EReal.coe_lt_coe_iff.2 (abs_lt.1 hx').1, fun s hs hst => ?_⟩)
    rcases lt_trichotomy s r with h1 | rfl | h1
    · exact Or.inl (EReal.coe_lt_coe_iff.2 (by linarith))
    · exact Or.inr ⟨by rw [hx], hev⟩
    · exact (hadj s hs h1 hst).elim
  have := le_rnd64 this
  rw [h] at this
  exact absurd (fin_le.1 this) (not_le.2 hlt)

/-- **Rounding to nearest, ties to even, commutes with the change of sign.** -/
theorem rnd64_neg {x : ℝ} (hx : |x| < over64) : ∃ r, ∃ h : Rep64 r, rnd64 (x : EReal) = F64.fin r h ∧ rnd64 ((-x : ℝ) : EReal) = F64.fin (-r) (rep64_neg h) := by
  obtain ⟨r, hr, e1, n1⟩ := rnd64_nearest hx
  have hx' : |-x| < over64 := by rwa [abs_neg]
  obtain ⟨w, hw, e2, n2⟩ := rnd64_nearest hx'
  refine ⟨r, hr, e1, ?_⟩
  suffices h : w = -r by
    subst h
    exact e2
  by_contra hne
  -- both are nearest to `x`, so `x` is in the middle and nothing is between
  have n3 : ∀ b, Rep64 b → |-w - x| ≤ |b - x| := by
    intro b hb
    have := n2 (-b) (rep64_neg hb)
    rwa [show w - -x = -(-w - x) by ring, show -b - -x = -(b - x) by ring, abs_neg, abs_neg] at this
  have heq : |r - x| = |-w - x| := le_antisymm (n1 _ (rep64_neg hw)) (n3 _ hr)
  have hmid : x = (r + -w) / 2 := by
    rcases abs_eq_abs.1 heq with h | h
    · exact absurd (show w = -r by linarith) hne
    · linarith
  have hadj : ∀ z, Rep64 z → ¬ (r < z ∧ z < -w) ∧ ¬ (-w < z ∧ z < r) := by
    intro z hz
    have := n1 z hz
    constructor
    · rintro ⟨a, b⟩
      rw [abs_of_nonpos (by linarith)] at this
      rcases abs_cases (z - x) with ⟨h, -⟩ | ⟨h, -⟩ <;> linarith
    · rintro ⟨a, b⟩
      rw [abs_of_nonneg (by linarith)] at this
      rcases abs_cases (z - x) with ⟨h, -⟩ | ⟨h, -⟩ <;> linarith
  rcases lt_trichotomy r (-w) with h | h | h
  · have h1 := tie_not_reached hx e1 (rep64_neg hw) h hmid fun z hz a b => (hadj z hz).1 ⟨a, b⟩
    have h2 := tie_not_reached hx' e2 (rep64_neg hr) (by linarith) (by linarith) fun z hz a b => (hadj (-z) (rep64_neg hz)).1 ⟨by linarith, by linarith⟩
    have h3 : ¬ Even64 r := fun h => h2 (even64_neg h)
    obtain ⟨z, hz, a, b⟩ := odd_between hr (rep64_neg hw) h3 h1 h
    exact (hadj z hz).1 ⟨a, b⟩
  · exact hne (by linarith)
  · have h1 := tie_reached e1 (rep64_neg hw) h (by linarith)
    have h2 := tie_reached e2 (rep64_neg hr) (by linarith) (by linarith)
    obtain ⟨z, hz, a, b⟩ := even_between (even64_neg h2) h1 h
    exact (hadj z hz).2 ⟨a, b⟩
end
end Verif.Dbvt
