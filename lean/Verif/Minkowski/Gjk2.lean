import Verif.Minkowski.Model
import Verif.Primitive.Props
import Mathlib.Tactic.LinearCombination
import Mathlib.Tactic.Positivity
import Mathlib.Tactic.ByContra
/-!
# GJK intersection in 2D (C52, C53, C65)
-/
namespace Verif.Minkowski
open Verif Geom Primitive
set_option linter.unusedSectionVars false

/-! ## Generic facts about the loop -/
section loop
variable {V K : Type} [Neg V] [Sub V] [Zero V] [DecidableEq V] [Zero K] [LinearOrder K] [Inner V K]

/-- Partial correctness of the loop from an invariant. -/
theorem gjkLoop_spec {reduce : List (SP V) → V → Bool × List (SP V) × V} {left right : V → Res V}
    (Inv : List (SP V) → V → Prop) (Miss : Prop) (Hit : List (SP V) → Prop)
    (step : ∀ s d, Inv s d → ∃ a, SP.fromMinkowski left right d = .ok a ∧ (Inner.dot a.v d ≤ 0 → Miss) ∧
      (0 < Inner.dot a.v d → ((reduce (s ++ [a]) d).1 = true → Hit (reduce (s ++ [a]) d).2.1) ∧
        ((reduce (s ++ [a]) d).1 = false → Inv (reduce (s ++ [a]) d).2.1 (reduce (s ++ [a]) d).2.2))) :
    ∀ n s d, Inv s d → ∃ o, gjkLoop reduce left right n s d = .ok o ∧ (o = .miss → Miss) ∧ (∀ t, o = .hit t → Hit t)
  | 0, s, d, _ => ⟨.exhausted, rfl, nofun, nofun⟩
  | n + 1, s, d, h => by
    obtain ⟨a, ha, h1, h2⟩ := step s d h
    simp only [gjkLoop, ha, Res.bind_ok]
    by_cases hd : Inner.dot a.v d ≤ 0
    · exact ⟨.miss, by simp [hd], fun _ => h1 hd, nofun⟩
    · obtain ⟨g1, g2⟩ := h2 (not_le.1 hd)
      cases hr : (reduce (s ++ [a]) d).1
      · obtain ⟨o, ho, h3, h4⟩ := gjkLoop_spec Inv Miss Hit step n _ _ (g2 hr)
        exact ⟨o, by simpa [hd] using ho, h3, h4⟩
      · refine ⟨.hit (reduce (s ++ [a]) d).2.1, by simp [hd], nofun, ?_⟩
        rintro t ⟨⟩
        exact g1 hr

/-- The loop does not use up its iterations when some rank decreases. -/
theorem gjkLoop_total {reduce : List (SP V) → V → Bool × List (SP V) × V} {left right : V → Res V}
    (Inv : Nat → List (SP V) → V → Prop)
    (step : ∀ k s d, Inv k s d → ∃ a, SP.fromMinkowski left right d = .ok a ∧
      (0 < Inner.dot a.v d → (reduce (s ++ [a]) d).1 = false →
        ∃ k' < k, Inv k' (reduce (s ++ [a]) d).2.1 (reduce (s ++ [a]) d).2.2)) :
    ∀ n k s d, Inv k s d → k < n → gjkLoop reduce left right n s d ≠ .ok .exhausted
  | 0, k, s, d, _, hn => by simp at hn
  | n + 1, k, s, d, h, hn => by
    obtain ⟨a, ha, h2⟩ := step k s d h
    simp only [gjkLoop, ha, Res.bind_ok]
    by_cases hd : Inner.dot a.v d ≤ 0
    · simp [hd]
    · cases hr : (reduce (s ++ [a]) d).1
      · obtain ⟨k', g1, g2⟩ := h2 (not_le.1 hd) hr
        simpa [hd] using gjkLoop_total Inv step n _ _ _ g2 (by omega)
      · simp [hd]
end loop

section
variable {K : Type} [Field K] [LinearOrder K] [IsStrictOrderedRing K]

/-! ## Specification -/

/-- A convex set of points. -/
def Convex2 (S : V2 K → Prop) : Prop := ∀ p q (t : K), S p → S q → 0 ≤ t → t ≤ 1 → S (p + (q - p) * t)
/-- `f` is a correct support function of the shape `S`: for every direction it returns a point of `S` farthest in that direction. -/
def SupportFn2 (f : V2 K → Res (V2 K)) (S : V2 K → Prop) : Prop := ∀ d, d ≠ 0 → ∃ p, f d = .ok p ∧ Extreme2 S d p
/-- A line separates the two shapes (they may touch it). -/
def Separated2 (L R : V2 K → Prop) : Prop := ∃ d : V2 K, d ≠ 0 ∧ ∀ x y, L x → R y → x.dot d ≤ y.dot d
/-- A support point made of one point of each shape. -/
def FromShapes2 (L R : V2 K → Prop) (p : SP (V2 K)) : Prop := L p.supA ∧ R p.supB ∧ p.v = p.supA - p.supB
/-- The origin is in the triangle with these corners. -/
def InTriangle (a b c : V2 K) : Prop :=
  ∃ u v w : K, 0 ≤ u ∧ 0 ≤ v ∧ 0 ≤ w ∧ u + v + w = 1 ∧ a * u + b * v + c * w = 0

/-- A point of the Minkowski difference. -/
def Mink2 (L R : V2 K → Prop) (x : V2 K) : Prop := ∃ l r, L l ∧ R r ∧ x = l - r

/-! ## Geometry of a triangle -/

theorem abp_dot (ab ac w : V2 K) : (tripleProduct ac ab ab).dot w = -(ab.perpDot ac * ab.perpDot w) := by
  simp [tripleProduct, V2.dot, V2.perpDot]; ring
theorem acp_dot (ab ac w : V2 K) : (tripleProduct ab ac ac).dot w = -(ab.perpDot ac * w.perpDot ac) := by
  simp [tripleProduct, V2.dot, V2.perpDot]; ring

theorem sub_dot2 (a b d : V2 K) : (a - b).dot d = a.dot d - b.dot d := by simp [V2.dot]; ring
theorem neg_dot2 (a d : V2 K) : (-a).dot d = -a.dot d := by simp [V2.dot]; ring
theorem dot_neg2 (a d : V2 K) : a.dot (-d) = -a.dot d := by simp [V2.dot]; ring

/-- The triangle made of an edge and a point on another level of `d` has area. -/
theorem tri_nondeg {a b c d : V2 K} (hbc : b ≠ c) (h : b.dot d = c.dot d) (ha : a.dot d ≠ b.dot d) : (b - a).perpDot (c - a) ≠ 0 := by
  intro hD
  have h1 : (b.x - c.x) * (b.dot d - a.dot d) = 0 := by
    have := congrArg (· * d.y) hD
    simp only [V2.perpDot, V2.dot, V2.sub_x, V2.sub_y, zero_mul] at this h ⊢
    linear_combination this + (b.x - a.x) * h
  have h2 : (b.y - c.y) * (b.dot d - a.dot d) = 0 := by
    have := congrArg (· * d.x) hD
    simp only [V2.perpDot, V2.dot, V2.sub_x, V2.sub_y, zero_mul] at this h ⊢
    linear_combination -this + (b.y - a.y) * h
  have hk : b.dot d - a.dot d ≠ 0 := sub_ne_zero.2 (Ne.symm ha)
  apply hbc
  ext
  · exact sub_eq_zero.1 ((mul_eq_zero.1 h1).resolve_right hk)
  · exact sub_eq_zero.1 ((mul_eq_zero.1 h2).resolve_right hk)

theorem dot_self_pos2 {v : V2 K} (h : v ≠ 0) : 0 < v.dot v := by
  rcases lt_or_eq_of_le (by simp only [V2.dot]; nlinarith [mul_self_nonneg v.x, mul_self_nonneg v.y] : 0 ≤ v.dot v) with h1 | h1
  · exact h1
  · exfalso
    apply h
    simp only [V2.dot] at h1
    have hx := mul_self_nonneg v.x
    have hy := mul_self_nonneg v.y
    ext <;> simp <;> apply mul_self_eq_zero.1 <;> linarith

/-! ## The invariant -/
section inv
variable (L R : V2 K → Prop)

/-- `p` is a boundary point of the Minkowski difference: extreme in some direction. -/
def Ext2 (p : V2 K) : Prop := ∃ e : V2 K, e ≠ 0 ∧ ∀ x, Mink2 L R x → x.dot e ≤ p.dot e

/-- A simplex that is an edge, with the search direction `d`. -/
structure EdgeInv (s0 s1 : SP (V2 K)) (d : V2 K) : Prop where
  d_ne : d ≠ 0
  from0 : FromShapes2 L R s0
  from1 : FromShapes2 L R s1
  ext0 : Ext2 L R s0.v
  ext1 : Ext2 L R s1.v
  ne : s0.v ≠ s1.v
  level : s0.v.dot d = s1.v.dot d
  origin : s0.v.dot d ≤ 0

/-- The states of the loop. -/
inductive Inv2 : List (SP (V2 K)) → V2 K → Prop
  | one {s0 d} : d ≠ 0 → FromShapes2 L R s0 → Ext2 L R s0.v → s0.v.dot d < 0 → Inv2 [s0] d
  | first {s0 s1 d} : EdgeInv L R s0 s1 d → Inv2 [s0, s1] d
  | later {s0 s1 d} : EdgeInv L R s0 s1 d → (∃ z, Mink2 L R z ∧ z.dot d < s0.v.dot d) → Inv2 [s0, s1] d

variable {L R}
theorem Inv2.d_ne {s : List (SP (V2 K))} {d : V2 K} (h : Inv2 L R s d) : d ≠ 0 := by
  cases h with
  | one h => exact h
  | first h => exact h.d_ne
  | later h => exact h.d_ne

theorem FromShapes2.mink {p : SP (V2 K)} (h : FromShapes2 L R p) : Mink2 L R p.v := ⟨_, _, h.1, h.2.1, h.2.2⟩

/-- A support point of the two shapes. -/
theorem minkowski2 {left right : V2 K → Res (V2 K)} (hl : SupportFn2 left L) (hr : SupportFn2 right R) {d : V2 K} (hd : d ≠ 0) :
    ∃ a, SP.fromMinkowski left right d = .ok a ∧ FromShapes2 L R a ∧ ∀ x, Mink2 L R x → x.dot d ≤ a.v.dot d := by
  obtain ⟨p, hp, h1, h2⟩ := hl d hd
  obtain ⟨q, hq, h3, h4⟩ := hr (-d) (by
    intro h; apply hd
    have hx := congrArg V2.x h
    have hy := congrArg V2.y h
    simp at hx hy
    ext <;> simp <;> assumption)
  refine ⟨⟨p - q, p, q⟩, by simp [SP.fromMinkowski, hp, hq], ⟨h1, h3, rfl⟩, ?_⟩
  rintro x ⟨l, r, hl, hr, rfl⟩
  have := h2 l hl
  have := h4 r hr
  rw [dot_neg2, dot_neg2] at this
  show _ ≤ (p - q).dot d
  rw [sub_dot2, sub_dot2]
  linarith

theorem edge_next {s0 s1 s2 : SP (V2 K)} {d : V2 K} (h : EdgeInv L R s0 s1 d) (h2 : FromShapes2 L R s2)
    (hs : ∀ x, Mink2 L R x → x.dot d ≤ s2.v.dot d) (ha : 0 < s2.v.dot d) :
    ((reduce2 [s0, s1, s2] d).1 = true → (reduce2 [s0, s1, s2] d).2.1 = [s0, s1, s2] ∧ InTriangle s0.v s1.v s2.v) ∧
    ((reduce2 [s0, s1, s2] d).1 = false → ∃ t0 t0', ((t0 = s1 ∧ t0' = s0) ∨ (t0 = s0 ∧ t0' = s1)) ∧ (reduce2 [s0, s1, s2] d).2.1 = [t0, s2] ∧
      EdgeInv L R t0 s2 (reduce2 [s0, s1, s2] d).2.2 ∧ t0'.v.dot (reduce2 [s0, s1, s2] d).2.2 < t0.v.dot (reduce2 [s0, s1, s2] d).2.2) := by
  set a := s2.v with hav
  set b := s1.v with hbv
  set c := s0.v with hcv
  have hbc : b ≠ c := h.ne.symm
  have hlev : b.dot d = c.dot d := h.level.symm
  have hb0 : c.dot d ≤ 0 := h.origin
  have hab : a.dot d ≠ b.dot d := by rw [hlev]; exact ne_of_gt (by linarith)
  have hD : (b - a).perpDot (c - a) ≠ 0 := tri_nondeg hbc hlev hab
  have hDD : 0 < (b - a).perpDot (c - a) * (b - a).perpDot (c - a) := mul_self_pos.2 hD
  have hext2 : Ext2 L R a := ⟨d, h.d_ne, hs⟩
  by_cases h1 : (tripleProduct (c - a) (b - a) (b - a)).dot (-a) > 0
  · have hr : reduce2 [s0, s1, s2] d = (false, [s1, s2], tripleProduct (c - a) (b - a) (b - a)) := by
      simp only [reduce2, ← hav, ← hbv, ← hcv, if_pos h1]
    rw [hr]
    refine ⟨by simp, fun _ => ⟨s1, s0, .inl ⟨rfl, rfl⟩, rfl, ⟨?_, h.from1, h2, h.ext1, hext2, ?_, ?_, ?_⟩, ?_⟩⟩
    · intro h0
      change tripleProduct _ _ _ = 0 at h0; rw [h0] at h1
      simp [V2.dot] at h1
    · intro h0
      apply hab
      show s2.v.dot d = _
      rw [← h0]
    · show b.dot (tripleProduct (c - a) (b - a) (b - a)) = a.dot (tripleProduct (c - a) (b - a) (b - a))
      simp [tripleProduct, V2.dot]; ring
    · show b.dot (tripleProduct (c - a) (b - a) (b - a)) ≤ 0
      have : b.dot (tripleProduct (c - a) (b - a) (b - a)) = -(tripleProduct (c - a) (b - a) (b - a)).dot (-a) := by
        simp [tripleProduct, V2.dot]; ring
      linarith
    · show c.dot (tripleProduct (c - a) (b - a) (b - a)) < b.dot (tripleProduct (c - a) (b - a) (b - a))
      have : c.dot (tripleProduct (c - a) (b - a) (b - a)) = b.dot (tripleProduct (c - a) (b - a) (b - a)) -
          (b - a).perpDot (c - a) * (b - a).perpDot (c - a) := by
        simp [tripleProduct, V2.dot, V2.perpDot]; ring
      linarith
  · by_cases h3 : (tripleProduct (b - a) (c - a) (c - a)).dot (-a) > 0
    · have hr : reduce2 [s0, s1, s2] d = (false, [s0, s2], tripleProduct (b - a) (c - a) (c - a)) := by
        simp only [reduce2, ← hav, ← hbv, ← hcv, if_neg h1, if_pos h3]
      rw [hr]
      refine ⟨by simp, fun _ => ⟨s0, s1, .inr ⟨rfl, rfl⟩, rfl, ⟨?_, h.from0, h2, h.ext0, hext2, ?_, ?_, ?_⟩, ?_⟩⟩
      · intro h0
        change tripleProduct _ _ _ = 0 at h0; rw [h0] at h3
        simp [V2.dot] at h3
      · intro h0
        apply hab
        rw [hlev]
        show s2.v.dot d = _
        rw [← h0]
      · show c.dot (tripleProduct (b - a) (c - a) (c - a)) = a.dot (tripleProduct (b - a) (c - a) (c - a))
        simp [tripleProduct, V2.dot]; ring
      · show c.dot (tripleProduct (b - a) (c - a) (c - a)) ≤ 0
        have : c.dot (tripleProduct (b - a) (c - a) (c - a)) = -(tripleProduct (b - a) (c - a) (c - a)).dot (-a) := by
          simp [tripleProduct, V2.dot]; ring
        linarith
      · show b.dot (tripleProduct (b - a) (c - a) (c - a)) < c.dot (tripleProduct (b - a) (c - a) (c - a))
        have : b.dot (tripleProduct (b - a) (c - a) (c - a)) = c.dot (tripleProduct (b - a) (c - a) (c - a)) -
            (b - a).perpDot (c - a) * (b - a).perpDot (c - a) := by
          simp [tripleProduct, V2.dot, V2.perpDot]; ring
        linarith
    · have hr : reduce2 [s0, s1, s2] d = (true, [s0, s1, s2], d) := by
        simp only [reduce2, ← hav, ← hbv, ← hcv, if_neg h1, if_neg h3]
      rw [hr]
      refine ⟨fun _ => ⟨rfl, ?_⟩, by simp⟩
      rw [abp_dot] at h1
      rw [acp_dot] at h3
      set D := (b - a).perpDot (c - a) with hDdef
      set g := (b - a).perpDot (-a) with hg
      set e := (-a).perpDot (c - a) with he
      have hg0 : 0 ≤ g / D := by
        rw [show g / D = (D * g) / (D * D) by field_simp]
        exact div_nonneg (by linarith) hDD.le
      have he0 : 0 ≤ e / D := by
        rw [show e / D = (D * e) / (D * D) by field_simp]
        exact div_nonneg (by linarith) hDD.le
      have hk : 0 < a.dot d - c.dot d := by linarith
      have hsum : (e + g) * (a.dot d - c.dot d) = D * a.dot d := by
        rw [hDdef, hg, he]
        simp [V2.perpDot, V2.dot] at hlev ⊢
        linear_combination (-(a.x * c.y) + a.y * c.x) * hlev
      have hle : e / D + g / D ≤ 1 := by
        have h5 : (e / D + g / D) * (a.dot d - c.dot d) = a.dot d := by
          field_simp
          linear_combination hsum
        by_contra hc
        push Not at hc
        nlinarith
      refine ⟨g / D, e / D, 1 - e / D - g / D, hg0, he0, by linarith, by ring, ?_⟩
      have hx : c.x * g + b.x * e + a.x * (D - e - g) = 0 := by
        rw [hDdef, hg, he]; simp [V2.perpDot]; ring
      have hy : c.y * g + b.y * e + a.y * (D - e - g) = 0 := by
        rw [hDdef, hg, he]; simp [V2.perpDot]; ring
      ext
      · simp
        field_simp
        linear_combination hx
      · simp
        field_simp
        linear_combination hy

/-- The first edge. -/
theorem first_edge {s0 a : SP (V2 K)} {d : V2 K} (h0 : FromShapes2 L R s0) (he : Ext2 L R s0.v) (hd : d ≠ 0) (hs0 : s0.v.dot d < 0)
    (ha : FromShapes2 L R a) (hs : ∀ x, Mink2 L R x → x.dot d ≤ a.v.dot d) (hp : 0 < a.v.dot d) :
    (reduce2 [s0, a] d).1 = false ∧ (reduce2 [s0, a] d).2.1 = [s0, a] ∧ EdgeInv L R s0 a (reduce2 [s0, a] d).2.2 := by
  refine ⟨rfl, rfl, ?_⟩
  have hne : s0.v ≠ a.v := by
    intro h; rw [h] at hs0; linarith
  have hab : s0.v - a.v ≠ 0 := by
    intro h; apply hne
    have hx := congrArg V2.x h
    have hy := congrArg V2.y h
    simp at hx hy
    ext <;> linarith
  set ab := s0.v - a.v with habd
  have hr : (reduce2 [s0, a] d).2.2 = if tripleProduct ab (-a.v) ab = 0 then ⟨-ab.y, ab.x⟩ else tripleProduct ab (-a.v) ab := rfl
  rw [hr]
  have hx : s0.v.x = ab.x + a.v.x := by rw [habd]; simp
  have hy : s0.v.y = ab.y + a.v.y := by rw [habd]; simp
  by_cases ht : tripleProduct ab (-a.v) ab = 0
  · rw [if_pos ht]
    have hpar : ab.perpDot a.v = 0 := by
      have h1 := congrArg V2.x ht
      have h2 := congrArg V2.y ht
      have h3 : ab.perpDot a.v * ab.dot ab = 0 := by
        simp only [tripleProduct, V2.neg_x, V2.neg_y, V2.zero_x, V2.zero_y] at h1 h2
        simp only [V2.perpDot, V2.dot]
        linear_combination -(ab.x) * h2 + ab.y * h1
      exact (mul_eq_zero.1 h3).resolve_right (dot_self_pos2 hab).ne'
    refine ⟨?_, h0, ha, he, ⟨d, hd, hs⟩, hne, ?_, ?_⟩
    · intro h
      have h1 := congrArg V2.x h
      have h2 := congrArg V2.y h
      simp at h1 h2
      apply hab
      ext <;> simp <;> assumption
    · simp only [V2.dot, hx, hy]; ring
    · simp only [V2.dot, hx, hy]
      simp only [V2.perpDot] at hpar
      linarith
  · rw [if_neg ht]
    refine ⟨ht, h0, ha, he, ⟨d, hd, hs⟩, hne, ?_, ?_⟩
    · simp [tripleProduct, V2.dot, hx, hy]; ring
    · simp [tripleProduct, V2.dot, hx, hy]
      nlinarith [mul_self_nonneg (ab.x * a.v.y - ab.y * a.v.x)]

/-- Convex shapes with a triangle of the Minkowski difference around the origin share a point. -/
theorem meet_of_triangle (hL : Convex2 L) (hR : Convex2 R) {s0 s1 s2 : SP (V2 K)} (h0 : FromShapes2 L R s0) (h1 : FromShapes2 L R s1)
    (h2 : FromShapes2 L R s2) (h : InTriangle s0.v s1.v s2.v) : ∃ x, L x ∧ R x := by
  obtain ⟨u, v, w, hu, hv, hw, hs, he⟩ := h
  have key : ∀ (S : V2 K → Prop), Convex2 S → ∀ a b c, S a → S b → S c → S (a * u + b * v + c * w) := by
    intro S hS a b c ha hb hc
    by_cases hz : v + w = 0
    · have hv0 : v = 0 := by linarith
      have hw0 : w = 0 := by linarith
      have hu1 : u = 1 := by linarith
      subst hv0 hw0 hu1
      have : a * (1 : K) + b * (0 : K) + c * (0 : K) = a := by ext <;> simp
      rwa [this]
    · have hpos : 0 < v + w := lt_of_le_of_ne (by linarith) (Ne.symm hz)
      have h3 : S (b + (c - b) * (w / (v + w))) := hS b c _ hb hc (by positivity) (by rw [div_le_one hpos]; linarith)
      have h4 := hS a _ (v + w) ha h3 hpos.le (by linarith)
      have : a + (b + (c - b) * (w / (v + w)) - a) * (v + w) = a * u + b * v + c * w := by
        have hu1 : u = 1 - v - w := by linarith
        subst hu1
        ext <;> simp <;> field_simp <;> ring
      rwa [this] at h4
  refine ⟨s0.supA * u + s1.supA * v + s2.supA * w, key L hL _ _ _ h0.1 h1.1 h2.1, ?_⟩
  have : s0.supA * u + s1.supA * v + s2.supA * w = s0.supB * u + s1.supB * v + s2.supB * w := by
    rw [h0.2.2, h1.2.2, h2.2.2] at he
    have hx := congrArg V2.x he
    have hy := congrArg V2.y he
    simp at hx hy
    ext <;> simp <;> linarith
  rw [this]
  exact key R hR _ _ _ h0.2.1 h1.2.1 h2.2.1

/-- What a returned simplex looks like. -/
def GoodHit2 (L R : V2 K → Prop) (s : List (SP (V2 K))) : Prop :=
  ∃ s0 s1 s2, s = [s0, s1, s2] ∧ FromShapes2 L R s0 ∧ FromShapes2 L R s1 ∧ FromShapes2 L R s2 ∧ InTriangle s0.v s1.v s2.v ∧
    Ext2 L R s0.v ∧ Ext2 L R s1.v ∧ Ext2 L R s2.v ∧ (s0.v - s2.v).perpDot (s1.v - s2.v) ≠ 0

theorem separated_of {d : V2 K} (hd : d ≠ 0) {a : V2 K} (hs : ∀ x, Mink2 L R x → x.dot d ≤ a.dot d) (h : a.dot d ≤ 0) : Separated2 L R :=
  ⟨d, hd, fun x y hx hy => by
    have := hs _ ⟨x, y, hx, hy, rfl⟩
    rw [sub_dot2] at this
    linarith⟩

theorem gjk2_step {left right : V2 K → Res (V2 K)} (hl : SupportFn2 left L) (hr : SupportFn2 right R) (s : List (SP (V2 K))) (d : V2 K)
    (h : Inv2 L R s d) : ∃ a, SP.fromMinkowski left right d = .ok a ∧ (Inner.dot a.v d ≤ 0 → Separated2 L R) ∧
      (0 < Inner.dot a.v d → ((reduce2 (s ++ [a]) d).1 = true → GoodHit2 L R (reduce2 (s ++ [a]) d).2.1) ∧
        ((reduce2 (s ++ [a]) d).1 = false → Inv2 L R (reduce2 (s ++ [a]) d).2.1 (reduce2 (s ++ [a]) d).2.2)) := by
  obtain ⟨a, ha, hf, hs⟩ := minkowski2 hl hr h.d_ne
  refine ⟨a, ha, separated_of h.d_ne hs, fun hp => ?_⟩
  have edge : ∀ s0 s1, EdgeInv L R s0 s1 d → ((reduce2 ([s0, s1] ++ [a]) d).1 = true → GoodHit2 L R (reduce2 ([s0, s1] ++ [a]) d).2.1) ∧
        ((reduce2 ([s0, s1] ++ [a]) d).1 = false → Inv2 L R (reduce2 ([s0, s1] ++ [a]) d).2.1 (reduce2 ([s0, s1] ++ [a]) d).2.2) := by
    intro s0 s1 he
    obtain ⟨h1, h2⟩ := edge_next he hf hs hp
    refine ⟨fun ht => ?_, fun hff => ?_⟩
    · obtain ⟨e1, e2⟩ := h1 ht
      exact ⟨s0, s1, a, e1, he.from0, he.from1, hf, e2, he.ext0, he.ext1, ⟨d, he.d_ne, hs⟩, tri_nondeg he.ne he.level (by
        have := he.origin
        have hp' : 0 < a.v.dot d := hp
        intro h; linarith)⟩
    · obtain ⟨t0, t0', ht, e1, e2, e3⟩ := h2 hff
      show Inv2 L R (reduce2 [s0, s1, a] d).2.1 _
      rw [e1]
      refine .later e2 ⟨t0'.v, ?_, e3⟩
      rcases ht with ⟨_, rfl⟩ | ⟨_, rfl⟩
      · exact he.from0.mink
      · exact he.from1.mink
  cases h with
  | one hd h0 he hn =>
    obtain ⟨e1, e2, e3⟩ := first_edge h0 he hd hn hf hs hp
    refine ⟨fun ht => ?_, fun _ => ?_⟩
    · exact absurd ht (by rw [show ([_] ++ [a] : List (SP (V2 K))) = [_, a] from rfl, e1]; simp)
    · show Inv2 L R (reduce2 [_, a] d).2.1 _
      rw [e2]
      exact .first e3
  | first he => exact edge _ _ he
  | later he _ => exact edge _ _ he

theorem neg_ne2 {d : V2 K} (h : d ≠ 0) : -d ≠ 0 := by
  intro h0; apply h
  have hx := congrArg V2.x h0
  have hy := congrArg V2.y h0
  simp at hx hy
  ext <;> simp <;> assumption

theorem firstDirection_ne (lp rp : V2 K) : firstDirection lp rp ≠ (0 : V2 K) := by
  unfold firstDirection
  dsimp only
  split
  · intro h; exact one_ne_zero (congrArg V2.x h)
  · assumption

/-- How GJK starts: it either stops at once or enters the loop in a good state. -/
theorem gjk2_start {left right : V2 K → Res (V2 K)} (hl : SupportFn2 left L) (hr : SupportFn2 right R) (n : Nat) (lp rp : V2 K) :
    (gjkRun reduce2 n left right lp rp = .ok .miss ∧ Separated2 L R) ∨
    ∃ a, gjkRun reduce2 n left right lp rp = gjkLoop reduce2 left right n [a] (-firstDirection lp rp) ∧ Inv2 L R [a] (-firstDirection lp rp) := by
  have hd := firstDirection_ne lp rp
  obtain ⟨a, ha, hf, hs⟩ := minkowski2 hl hr hd
  by_cases h : a.v.dot (firstDirection lp rp) ≤ 0
  · exact .inl ⟨by simp [gjkRun, ha, Inner.dot, h], separated_of hd hs h⟩
  · refine .inr ⟨a, by simp [gjkRun, ha, Inner.dot, h], .one (neg_ne2 hd) hf ⟨_, hd, hs⟩ ?_⟩
    rw [dot_neg2]; linarith

theorem gjk2_run {left right : V2 K → Res (V2 K)} (hl : SupportFn2 left L) (hr : SupportFn2 right R) (n : Nat) (lp rp : V2 K) :
    ∃ o, gjkRun reduce2 n left right lp rp = .ok o ∧ (o = .miss → Separated2 L R) ∧ ∀ s, o = .hit s → GoodHit2 L R s := by
  rcases gjk2_start hl hr n lp rp with ⟨h1, h2⟩ | ⟨a, h1, h2⟩
  · exact ⟨_, h1, fun _ => h2, nofun⟩
  · rw [h1]
    exact gjkLoop_spec (Inv2 L R) _ _ (gjk2_step hl hr) n _ _ h2
end inv

/-! ## Properties -/

/-- C53 (2D). Whatever the iteration limit, for two convex shapes given by correct support functions GJK returns (no panic), and a returned
simplex is a triangle of differences of points of the shapes that encloses the origin; the shapes then share a point. -/
theorem c53_2d (L R : V2 K → Prop) (hL : Convex2 L) (hR : Convex2 R) {left right : V2 K → Res (V2 K)} (hl : SupportFn2 left L)
    (hr : SupportFn2 right R) (maxIterations : Nat) (leftPos rightPos : V2 K) :
    ∃ o, gjkIntersect reduce2 maxIterations left right leftPos rightPos = .ok o ∧
      ∀ s, o = some s → (∃ x, L x ∧ R x) ∧
        ∃ s0 s1 s2, s = [s0, s1, s2] ∧ (∀ p ∈ s, FromShapes2 L R p) ∧ InTriangle s0.v s1.v s2.v := by
  obtain ⟨o, h1, h2, h3⟩ := gjk2_run hl hr maxIterations leftPos rightPos
  refine ⟨o.toOption, by simp [gjkIntersect, h1], ?_⟩
  intro s hs
  cases o with
  | hit t =>
    obtain ⟨s0, s1, s2, rfl, f0, f1, f2, ht, _⟩ := h3 t rfl
    simp only [Out.toOption, Option.some.injEq] at hs
    subst hs
    refine ⟨meet_of_triangle hL hR f0 f1 f2 ht, s0, s1, s2, rfl, ?_, ht⟩
    simp [f0, f1, f2]
  | miss => simp [Out.toOption] at hs
  | exhausted => simp [Out.toOption] at hs

/-- C52 (2D). If GJK answers "no collision" before its iterations are used up, a line separates the shapes. -/
theorem c52_2d (L R : V2 K → Prop) {left right : V2 K → Res (V2 K)} (hl : SupportFn2 left L)
    (hr : SupportFn2 right R) (maxIterations : Nat) (leftPos rightPos : V2 K)
    (h : gjkRun reduce2 maxIterations left right leftPos rightPos = .ok .miss) : Separated2 L R := by
  obtain ⟨o, h1, h2, h3⟩ := gjk2_run hl hr maxIterations leftPos rightPos
  rw [h] at h1
  cases h1
  exact h2 rfl
end
end Verif.Minkowski
