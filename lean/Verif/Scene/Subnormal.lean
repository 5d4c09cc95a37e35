import Verif.Scene.F64Miss3
/-!
# GJK in rounded arithmetic, for all coordinates of the format (C115)

C106 and C114 ask that all coordinates are multiples of a small power of two, so that search directions do not become so small that underflow spoils their products. In `f32` that is a strong condition. Without it a
miss is right up to rounding, or the run asked for a support point in a direction all of whose components are subnormal (or zero): smaller than `f32::MIN_POSITIVE`, resp. `f64::MIN_POSITIVE`. Such a run is recognised
by a support function that panics on these directions.
-/
namespace Verif.Scene
open Verif Geom Primitive Minkowski
open Verif.Dbvt (Rounding F64 binary64 Rep64)
set_option linter.unusedSectionVars false
noncomputable section
open Classical

/-- Specification: the support function that panics when it is asked for a bad direction. -/
def refusing {V : Type} (Bad : V → Prop) (f : V → Res V) (d : V) : Res V := if Bad d then .panic else f d

/-- The loop, with an invariant, next to the loop with a support function that panics on bad directions. -/
theorem loop_refusing {V K : Type} [Neg V] [Sub V] [Zero K] [LinearOrder K] [Inner V K] {reduce : List (SP V) → V → Bool × List (SP V) × V} {left right : V → Res V}
    (Bad : V → Prop) (Inv : List (SP V) → V → Prop) (Miss : Prop) (Hit : List (SP V) → Prop)
    (step : ∀ s d, Inv s d → ∃ a, SP.fromMinkowski left right d = .ok a ∧ (¬ Bad d → Inner.dot a.v d ≤ 0 → Miss) ∧
      (0 < Inner.dot a.v d → ((reduce (s ++ [a]) d).1 = true → Hit (reduce (s ++ [a]) d).2.1) ∧
        ((reduce (s ++ [a]) d).1 = false → Inv (reduce (s ++ [a]) d).2.1 (reduce (s ++ [a]) d).2.2))) :
    ∀ n s d, Inv s d → ∃ o, gjkLoop reduce left right n s d = .ok o ∧ (o = .miss → Miss ∨ gjkLoop reduce (refusing Bad left) right n s d = .panic) ∧ (∀ t, o = .hit t → Hit t)
  | 0, s, d, _ => ⟨.exhausted, rfl, nofun, nofun⟩
  | n + 1, s, d, h => by
    obtain ⟨a, ha, h1, h2⟩ := step s d h
    by_cases hz : Bad d
    · have e : gjkLoop reduce (refusing Bad left) right (n + 1) s d = .panic := by
        have : SP.fromMinkowski (refusing Bad left) right d = .panic := by
          unfold SP.fromMinkowski refusing
          rw [if_pos hz]
          rfl
        simp only [gjkLoop, this, Res.bind_panic]
      simp only [gjkLoop, ha, Res.bind_ok]
      by_cases hd : Inner.dot a.v d ≤ 0
      · refine ⟨.miss, by simp [hd], fun _ => Or.inr ?_, nofun⟩
        simpa only [gjkLoop] using e
      · obtain ⟨g1, g2⟩ := h2 (not_le.1 hd)
        cases hr : (reduce (s ++ [a]) d).1
        · obtain ⟨o, ho, h3, h4⟩ := loop_refusing Bad Inv Miss Hit step n _ _ (g2 hr)
          refine ⟨o, by simpa [hd] using ho, fun _ => Or.inr ?_, h4⟩
          simpa only [gjkLoop] using e
        · refine ⟨.hit (reduce (s ++ [a]) d).2.1, by simp [hd], nofun, ?_⟩
          rintro t ⟨⟩
          exact g1 hr
    · have ha' : SP.fromMinkowski (refusing Bad left) right d = .ok a := by
        rw [← ha]
        unfold SP.fromMinkowski refusing
        rw [if_neg hz]
      simp only [gjkLoop, ha, ha', Res.bind_ok]
      by_cases hd : Inner.dot a.v d ≤ 0
      · exact ⟨.miss, by simp [hd], fun _ => Or.inl (h1 hz hd), nofun⟩
      · obtain ⟨g1, g2⟩ := h2 (not_le.1 hd)
        cases hr : (reduce (s ++ [a]) d).1
        · obtain ⟨o, ho, h3, h4⟩ := loop_refusing Bad Inv Miss Hit step n _ _ (g2 hr)
          exact ⟨o, by simpa [hd] using ho, by simpa [hd] using h3, h4⟩
        · refine ⟨.hit (reduce (s ++ [a]) d).2.1, by simp [hd], nofun, ?_⟩
          rintro t ⟨⟩
          exact g1 hr

variable {V K : Type} [Neg V] [Sub V] [Zero K] [LinearOrder K] [Inner V K] in
/-- The run from its first direction on. -/
def runFrom (reduce : List (SP V) → V → Bool × List (SP V) × V) (n : Nat) (left right : V → Res V) (d : V) : Res (Out V) := do
  let a ← SP.fromMinkowski left right d
  if Inner.dot a.v d ≤ 0 then return .miss
  else gjkLoop reduce left right n [a] (-d)
theorem gjkRunG2_from {K : Type} [Zero K] [One K] [Add K] [Sub K] [Mul K] [Neg K] [LinearOrder K] (eps : K) (n : Nat) (left right : V2 K → Res (V2 K)) (p q : V2 K) :
    gjkRunG2 eps n left right p q = runFrom (reduceG2 eps) n left right (firstDirectionG2 eps p q) := rfl
theorem gjkRunG3_from {K : Type} [Zero K] [One K] [Add K] [Sub K] [Mul K] [Neg K] [LinearOrder K] (eps tenth : K) (n : Nat) (left right : V3 K → Res (V3 K)) (p q : V3 K) :
    gjkRunG3 eps tenth n left right p q = runFrom (reduceG3 eps tenth) n left right (firstDirectionG3 eps p q) := rfl

theorem runFrom_refusing {V K : Type} [Neg V] [Sub V] [Zero K] [LinearOrder K] [Inner V K] {reduce : List (SP V) → V → Bool × List (SP V) × V} {left right : V → Res V}
    (Bad : V → Prop) (Inv : List (SP V) → V → Prop) (Miss : Prop) (Hit : List (SP V) → Prop)
    (step : ∀ s d, Inv s d → ∃ a, SP.fromMinkowski left right d = .ok a ∧ (¬ Bad d → Inner.dot a.v d ≤ 0 → Miss) ∧
      (0 < Inner.dot a.v d → ((reduce (s ++ [a]) d).1 = true → Hit (reduce (s ++ [a]) d).2.1) ∧
        ((reduce (s ++ [a]) d).1 = false → Inv (reduce (s ++ [a]) d).2.1 (reduce (s ++ [a]) d).2.2))) (n : Nat) {d : V}
    (first : ∃ a, SP.fromMinkowski left right d = .ok a ∧ (¬ Bad d → Inner.dot a.v d ≤ 0 → Miss) ∧ (0 < Inner.dot a.v d → Inv [a] (-d))) :
    ∃ o, runFrom reduce n left right d = .ok o ∧ (o = .miss → Miss ∨ runFrom reduce n (refusing Bad left) right d = .panic) ∧ (∀ t, o = .hit t → Hit t) := by
  obtain ⟨a, ea, hmiss, hinv⟩ := first
  unfold runFrom
  rw [ea, Res.bind_ok]
  by_cases hz : Bad d
  · have e : SP.fromMinkowski (refusing Bad left) right d = .panic := by
      unfold SP.fromMinkowski refusing
      rw [if_pos hz]
      rfl
    rw [e, Res.bind_panic]
    by_cases hle : Inner.dot a.v d ≤ 0
    · rw [if_pos hle]
      exact ⟨.miss, rfl, fun _ => Or.inr rfl, nofun⟩
    · rw [if_neg hle]
      obtain ⟨o, ho, -, h4⟩ := loop_refusing Bad Inv Miss Hit step n _ _ (hinv (not_le.1 hle))
      exact ⟨o, ho, fun _ => Or.inr rfl, h4⟩
  · have e : SP.fromMinkowski (refusing Bad left) right d = .ok a := by
      rw [← ea]
      unfold SP.fromMinkowski refusing
      rw [if_neg hz]
    rw [e, Res.bind_ok]
    by_cases hle : Inner.dot a.v d ≤ 0
    · rw [if_pos hle, if_pos hle]
      exact ⟨.miss, rfl, fun _ => Or.inl (hmiss hz hle), nofun⟩
    · rw [if_neg hle, if_neg hle]
      exact loop_refusing Bad Inv Miss Hit step n _ _ (hinv (not_le.1 hle))

variable {F : Type} [LinearOrder F] {R : Rounding F} {u η Ω M N A B τ : ℝ}

/-- Specification: a number smaller than `τ`. -/
def TinyN (R : Rounding F) (τ : ℝ) (x : Fl R) : Prop := ((-τ : ℝ) : EReal) < R.val x ∧ R.val x < (τ : EReal)
/-- Specification: all components are smaller than `τ`. -/
def Tiny2 (R : Rounding F) (τ : ℝ) (d : V2 (Fl R)) : Prop := TinyN R τ d.x ∧ TinyN R τ d.y
def Tiny3 (R : Rounding F) (τ : ℝ) (d : V3 (Fl R)) : Prop := TinyN R τ d.x ∧ TinyN R τ d.y ∧ TinyN R τ d.z

theorem tiny_iff {x : ℝ} (hx : Rep R x) : TinyN R τ (toF R x) ↔ |x| < τ := by
  unfold TinyN
  have e : R.val (toF R x) = (x : EReal) := hx
  rw [e, EReal.coe_lt_coe_iff, EReal.coe_lt_coe_iff, abs_lt]
theorem not_tiny2 {d : V2 ℝ} (hd : Rp R d) (h : ¬ Tiny2 R τ (toV2 R d)) : τ ≤ size2 d := by
  by_contra hc
  push Not at hc
  exact h ⟨(tiny_iff hd.1).2 ((le_max_left _ _).trans_lt hc), (tiny_iff hd.2).2 ((le_max_right _ _).trans_lt hc)⟩
theorem not_tiny3 {d : V3 ℝ} (hd : Rep3 R d) (h : ¬ Tiny3 R τ (toV3 R d)) : τ ≤ size3 d := by
  by_contra hc
  push Not at hc
  have := sz_size3 d
  exact h ⟨(tiny_iff hd.1).2 (this.1.trans_lt hc), (tiny_iff hd.2.1).2 (this.2.1.trans_lt hc), (tiny_iff hd.2.2).2 (this.2.2.trans_lt hc)⟩

section two
variable {s t : Flat2 ℝ} {D E : Dec2 ℝ} {d : V2 ℝ}

/-- **C115, 2D**: rounded arithmetic with relative error `u` and underflow `η ≤ u τ`; polygons, rectangles, lines and particles with any coordinates of the format of at most `M`. GJK does not panic; when it ends with a
miss, then in some direction the shapes overlap by at most `1536 * u * M`, or it asked for a support point in a direction with all components smaller than `τ`; and a hit is three points, each within rounding of a
difference of points of the shapes. -/
theorem c115_2d (h : Std R u η Ω) (hM : 1 ≤ M) (hΩ : 2 ^ 23 * M ^ 4 ≤ Ω) (hτ : 0 < τ) (hτ1 : τ ≤ 1) (hητ : η ≤ u * τ) {eps : Fl R} (heps : 0 ≤ eps) (hs : s.Fits R M) (ht : t.Fits R M) (hD : Fits2 R M D) (hF : Fits2 R M E)
    (n : Nat) :
    ∃ o, gjkRunG2 eps n ((s.toFl R).supportG (decF R D)) ((t.toFl R).supportG (decF R E)) (pointG2 (decF R D) 0) (pointG2 (decF R E) 0) = .ok o ∧
      (o = .miss → NearlySeparated (1536 * (u * M)) (Image D.tr s.prim.Points) (Image E.tr t.prim.Points) ∨
        gjkRunG2 eps n (refusing (Tiny2 R τ) ((s.toFl R).supportG (decF R D))) ((t.toFl R).supportG (decF R E)) (pointG2 (decF R D) 0) (pointG2 (decF R E) 0) = .panic) ∧
      (∀ x, o = .hit x → x.length = 3 ∧ ∀ p ∈ x, NearPoint R (40 * (u * M)) (Image D.tr s.prim.Points) (Image E.tr t.prim.Points) p) := by
  have hu := h.u0
  have hu1 := h.u1
  have hη := h.η0
  have m3 : M ≤ M ^ 3 := le_self_pow₀ hM (by norm_num)
  have m4 : M ^ 3 ≤ M ^ 4 := pow_le_pow_right₀ hM (by norm_num)
  have hηu : η ≤ u := hητ.trans (by nlinarith)
  have hητ' : η * (1 / τ) ≤ u := by
    rw [mul_one_div, div_le_iff₀ hτ]
    exact hητ
  have g1 : 1 ≤ 1 / τ := by rwa [le_div_iff₀ hτ, one_mul]
  have uM : u * 1 ≤ u * M := mul_le_mul_of_nonneg_left hM hu
  have hΩ' : 9 * (24 * M) ^ 3 ≤ Ω := by
    rw [mul_pow]; linarith
  have big : ∀ {d' : V2 ℝ}, Sz (9 * (24 * M) ^ 3) d' → 64 * (M * (size2 d' + 1)) ≤ Ω := by
    intro d' sd
    have h1 := size_le sd
    rw [mul_pow] at h1
    have h2 : M * size2 d' ≤ M * (9 * (24 ^ 3 * M ^ 3)) := mul_le_mul_of_nonneg_left h1 (by linarith)
    have h3 : M * (9 * (24 ^ 3 * M ^ 3)) = 124416 * M ^ 4 := by ring
    rw [h3] at h2
    linarith
  -- one question
  have ask : ∀ {d' : V2 ℝ}, Rp R d' → Sz (9 * (24 * M) ^ 3) d' → d' ≠ 0 → ∃ a a', SP.fromMinkowski ((s.toFl R).supportG (decF R D)) ((t.toFl R).supportG (decF R E)) (toV2 R d') = .ok a ∧ a.v = toV2 R a' ∧ Rp R a' ∧ Sz (11 * M) a' ∧
      NearPoint R (40 * (u * M)) (Image D.tr s.prim.Points) (Image E.tr t.prim.Points) a ∧
      (¬ Tiny2 R τ (toV2 R d') → a.v.dot (toV2 R d') ≤ 0 → NearlySeparated (1536 * (u * M)) (Image D.tr s.prim.Points) (Image E.tr t.prim.Points)) := by
    intro d' rd sd nd
    obtain ⟨a, a', ea, va, ra, sa, ⟨v, x, y, p, q, hp, hq, e, r, n1, n2, n3⟩, hmiss⟩ := mink_near h hs ht hD hF hM rd (sz_size d') (big sd)
    refine ⟨a, a', ea, va, ra, sa, ⟨v, x, y, p, q, hp, hq, e, r, n1.mono (by linarith), n2.mono (by linarith), n3.mono (by linarith)⟩, fun hT hle => ?_⟩
    refine near_of_missAt hu hη hM g1 hητ' nd ?_ (hmiss hle)
    rw [mul_one_div, le_div_iff₀ hτ, one_mul]
    exact not_tiny2 rd hT
  have z0 : Rp R (0 : V2 ℝ) := ⟨rep_zero, rep_zero⟩
  have zs : Sz M (0 : V2 ℝ) := ⟨by simp; linarith, by simp; linarith⟩
  obtain ⟨p, rp, sp, ep, -⟩ := point_near h hD hM z0 zs (by linarith)
  obtain ⟨q, rq, sq, eq, -⟩ := point_near h hF hM z0 zs (by linarith)
  rw [← toV2_zero, ep, eq]
  -- the first direction
  obtain ⟨d, ed, rd, sd, nd⟩ : ∃ d', firstDirectionG2 eps (toV2 R p) (toV2 R q) = toV2 R d' ∧ Rp R d' ∧ Sz (9 * (24 * M) ^ 3) d' ∧ d' ≠ 0 := by
    obtain ⟨c, rc, ec, dc, -⟩ := sub_err h rq rp sq sp (by linarith)
    unfold firstDirectionG2
    dsimp only
    rw [ec]
    by_cases hn : NearG2 eps (toV2 R c)
    · rw [if_pos hn]
      refine ⟨⟨1, 1⟩, ?_, ⟨rep_one, rep_one⟩, ?_, ?_⟩
      · show _ = (⟨toF R 1, toF R 1⟩ : V2 (Fl R))
        rw [toF_one]
      · have : Sz 1 (⟨1, 1⟩ : V2 ℝ) := ⟨by simp, by simp⟩
        refine this.mono ?_
        rw [mul_pow]
        linarith
      · intro h0
        have : (1 : ℝ) = 0 := congrArg V2.x h0
        norm_num at this
    · rw [if_neg hn]
      refine ⟨c, rfl, rc, ?_, ?_⟩
      · have uM : u * (5 * M + 5 * M) ≤ 1 / 16 * (5 * M + 5 * M) := mul_le_mul_of_nonneg_right hu1 (by linarith)
        refine (sz_sub dc (B := 10 * M) ?_).mono (by rw [mul_pow]; linarith)
        constructor
        · refine (abs_sub _ _).trans ?_
          linarith [sq.1, sp.1]
        · refine (abs_sub _ _).trans ?_
          linarith [sq.2, sp.2]
      · rintro rfl
        exact hn (near_zero heps)
  rw [gjkRunG2_from, gjkRunG2_from, ed]
  refine runFrom_refusing (Tiny2 R τ) (fun x d => MissInv R M x d ∧ ∀ p ∈ x, NearPoint R (40 * (u * M)) (Image D.tr s.prim.Points) (Image E.tr t.prim.Points) p)
    (NearlySeparated (1536 * (u * M)) (Image D.tr s.prim.Points) (Image E.tr t.prim.Points)) (fun x => x.length = 3 ∧ ∀ p ∈ x, NearPoint R (40 * (u * M)) (Image D.tr s.prim.Points) (Image E.tr t.prim.Points) p) ?_ n ?_
  · rintro x d ⟨hI, nx⟩
    obtain ⟨d', rfl, rd, sd, nd, -⟩ := id hI
    obtain ⟨a, a', ea, va, ra, sa, na, hmiss⟩ := ask rd sd nd
    have all : ∀ p ∈ (reduceG2 eps (x ++ [a]) (toV2 R d')).2.1, NearPoint R (40 * (u * M)) (Image D.tr s.prim.Points) (Image E.tr t.prim.Points) p := by
      intro p hp
      rcases List.mem_append.1 (reduceG2_mem hp) with hp | hp
      · exact nx p hp
      · rw [List.mem_singleton.1 hp]
        exact na
    exact ⟨a, ea, hmiss, fun hpos => ⟨fun ht => ⟨reduceG2_hit ht, all⟩, fun hf => ⟨reduce_miss h hM hΩ heps hI va ra sa hpos hf, all⟩⟩⟩
  · obtain ⟨a, a', ea, va, ra, sa, na, hmiss⟩ := ask rd sd nd
    refine ⟨a, ea, hmiss, fun hpos => ⟨⟨-d, toV2_neg rd, rd.neg h sd hΩ', sd.neg, neg_ne2 nd, Or.inl ⟨a, a', rfl, va, ra, sa, ?_⟩⟩, by simpa using na⟩⟩
    rw [show - -d = d by ext <;> simp, ← va]
    exact hpos
end two

section three
variable {s t : Minkowski.Box3 ℝ} {D E : Dec3 ℝ}

theorem reduce3_bounded (h : Std R u η Ω) (hM : 1 ≤ M) (hΩ : 2 ^ 32 * M ^ 4 ≤ Ω) {eps tenth : Fl R} (hT : GoodTenth R tenth)
    {l : List (SP (V3 (Fl R)))} (hl : ∀ p ∈ l, BdV R (13 * M) p.v) {d : V3 (Fl R)} (hd : BdV R (2 ^ 22 * M ^ 3) d) :
    (∀ p ∈ (reduceG3 eps tenth l d).2.1, p ∈ l) ∧ BdV R (2 ^ 22 * M ^ 3) (reduceG3 eps tenth l d).2.2 ∧ ((reduceG3 eps tenth l d).1 = true → (reduceG3 eps tenth l d).2.1.length = 4) := by
  have m2 : M ^ 2 ≤ M ^ 3 := pow_le_pow_right₀ hM (by norm_num)
  have m1 : M ≤ M ^ 2 := le_self_pow₀ hM (by norm_num)
  have m4 : M ^ 3 ≤ M ^ 4 := pow_le_pow_right₀ hM (by norm_num)
  have m0 : 0 ≤ M ^ 2 := by positivity
  have q2 : ∀ x y : ℝ, (x * M) * (y * M) = x * y * M ^ 2 := fun x y => by ring
  have q3 : ∀ x y : ℝ, (x * M ^ 2) * (y * M) = x * y * M ^ 3 := fun x y => by ring
  -- the difference of two points
  have diff : ∀ {p q : V3 (Fl R)}, BdV R (13 * M) p → BdV R (13 * M) q → BdV R (52 * M) (p - q) := fun hp hq =>
    (hp.sub h hq (by linarith) (by linarith) (by linarith)).mono (by linarith)
  have neg : ∀ {p : V3 (Fl R)}, BdV R (13 * M) p → BdV R (13 * M) (-p) := fun hp => hp.neg h (by linarith)
  -- the normal of a side
  have normal : ∀ {p q : V3 (Fl R)}, BdV R (52 * M) p → BdV R (52 * M) q → BdV R (2 ^ 22 * M ^ 3) (p.cross q) := fun hp hq =>
    (hp.cross h hq (by linarith) (by linarith) (by rw [q2]; linarith)).mono (by rw [q2]; linarith)
  -- towards the origin, perpendicular to a side
  have aba : ∀ {p q : V3 (Fl R)}, BdV R (52 * M) p → BdV R (13 * M) q → BdV R (2 ^ 22 * M ^ 3) (crossAbaG p q) := by
    intro p q hp hq
    have h1 : BdV R (5408 * M ^ 2) (p.cross q) := (hp.cross h hq (by linarith) (by linarith) (by rw [q2]; linarith)).mono (by rw [q2]; linarith)
    exact (h1.cross h hp (by linarith) (by linarith) (by rw [q3]; linarith)).mono (by rw [q3]; linarith)
  have side : ∀ {abc ab ac ao : V3 (Fl R)} {s0 s1 s2 : SP (V3 (Fl R))} {above ign : Bool}, BdV R (2 ^ 22 * M ^ 3) abc → BdV R (52 * M) ab → BdV R (52 * M) ac →
      BdV R (13 * M) ao → (∀ p ∈ (checkSideG abc ab ac ao s0 s1 s2 above ign).1, p = s0 ∨ p = s1 ∨ p = s2) ∧ BdV R (2 ^ 22 * M ^ 3) (checkSideG abc ab ac ao s0 s1 s2 above ign).2 := by
    intro abc ab ac ao s0 s1 s2 above ign h0 h1 h2 h3
    unfold checkSideG
    dsimp only
    split
    · refine ⟨fun p hp => ?_, aba h1 h3⟩
      simp only [List.mem_cons, List.not_mem_nil, or_false] at hp
      exact Or.inr hp
    · split
      · refine ⟨fun p hp => ?_, aba h2 h3⟩
        simp only [List.mem_cons, List.not_mem_nil, or_false] at hp
        exact hp.imp id Or.inr
      · split
        · refine ⟨fun p hp => ?_, h0⟩
          simp only [List.mem_cons, List.not_mem_nil, or_false] at hp
          exact hp
        · refine ⟨fun p hp => ?_, h0.neg h (by linarith)⟩
          simp only [List.mem_cons, List.not_mem_nil, or_false] at hp
          rcases hp with hp | hp | hp
          · exact Or.inr (Or.inl hp)
          · exact Or.inl hp
          · exact Or.inr (Or.inr hp)
  match l with
  | [] => exact ⟨fun p hp => hp, hd, nofun⟩
  | [_] => exact ⟨fun p hp => hp, hd, nofun⟩
  | _ :: _ :: _ :: _ :: _ :: _ => exact ⟨fun p hp => hp, hd, nofun⟩
  | [s0, s1] =>
    have h0 := hl s0 (by simp)
    have h1 := hl s1 (by simp)
    have g := aba (diff h0 h1) (neg h1)
    unfold reduceG3
    dsimp only
    refine ⟨fun p hp => hp, ?_, nofun⟩
    split
    · obtain ⟨v, ev, rv, sv⟩ := g
      obtain ⟨y, ey, ry, y1, y2⟩ := hT
      refine ⟨⟨y, v.y, v.z⟩, ?_, ⟨ry, rv.2.1, rv.2.2⟩, ⟨?_, sv.2.1, sv.2.2⟩⟩
      · rw [ev, ey]
        rfl
      · show |y| ≤ _
        linarith
    · exact g
  | [s0, s1, s2] =>
    have h0 := hl s0 (by simp)
    have h1 := hl s1 (by simp)
    have h2 := hl s2 (by simp)
    have hab := diff h1 h2
    have hac := diff h0 h2
    obtain ⟨k1, k2⟩ := side (s0 := s0) (s1 := s1) (s2 := s2) (above := false) (ign := false) (normal hab hac) hab hac (neg h2)
    refine ⟨fun p hp => ?_, k2, nofun⟩
    rcases k1 p hp with rfl | rfl | rfl <;> simp
  | [s0, s1, s2, s3] =>
    have h0 := hl s0 (by simp)
    have h1 := hl s1 (by simp)
    have h2 := hl s2 (by simp)
    have h3 := hl s3 (by simp)
    have hab := diff h2 h3
    have hac := diff h1 h3
    have had := diff h0 h3
    have hao := neg h3
    unfold reduceG3
    dsimp only
    split
    · obtain ⟨k1, k2⟩ := side (s0 := s1) (s1 := s2) (s2 := s3) (above := true) (ign := false) (normal hab hac) hab hac hao
      refine ⟨fun p hp => ?_, k2, nofun⟩
      rcases k1 p hp with rfl | rfl | rfl <;> simp
    · split
      · obtain ⟨k1, k2⟩ := side (s0 := s0) (s1 := s1) (s2 := s3) (above := true) (ign := true) (normal hac had) hac had hao
        refine ⟨fun p hp => ?_, k2, nofun⟩
        rcases k1 p hp with rfl | rfl | rfl <;> simp
      · split
        · refine ⟨fun p hp => ?_, normal had hab, nofun⟩
          simp only [List.mem_cons, List.not_mem_nil, or_false] at hp
          rcases hp with rfl | rfl | rfl <;> simp
        · exact ⟨fun p hp => hp, hd, fun _ => rfl⟩

/-- **C115, 3D**: the same for cuboids, cubes, quads, polyhedra without faces and particles; a hit is four points. -/
theorem c115_3d (h : Std R u η Ω) (hM : 1 ≤ M) (hΩ : 2 ^ 32 * M ^ 4 ≤ Ω) (hτ : 0 < τ) (hτ1 : τ ≤ 1) (hητ : η ≤ u * τ) {eps tenth : Fl R} (hT : GoodTenth R tenth) (hs : FitsS R M s) (ht : FitsS R M t) (hD : Fits3 R M D) (hF : Fits3 R M E)
    (n : Nat) :
    ∃ o, gjkRunG3 eps tenth n ((s.toFl R).supportG (decF3 R D)) ((t.toFl R).supportG (decF3 R E)) (pointG3 (decF3 R D) 0) (pointG3 (decF3 R E) 0) = .ok o ∧
      (o = .miss → NearlySeparated3 (3072 * (u * M)) (Image D.tr s.prim.Points) (Image E.tr t.prim.Points) ∨
        gjkRunG3 eps tenth n (refusing (Tiny3 R τ) ((s.toFl R).supportG (decF3 R D))) ((t.toFl R).supportG (decF3 R E)) (pointG3 (decF3 R D) 0) (pointG3 (decF3 R E) 0) = .panic) ∧
      (∀ x, o = .hit x → x.length = 4 ∧ ∀ p ∈ x, NearPoint3 R (55 * (u * M)) (Image D.tr s.prim.Points) (Image E.tr t.prim.Points) p) := by
  have hu := h.u0
  have hu1 := h.u1
  have hη := h.η0
  have m3 : M ≤ M ^ 3 := le_self_pow₀ hM (by norm_num)
  have m4 : M ^ 3 ≤ M ^ 4 := pow_le_pow_right₀ hM (by norm_num)
  have hηu' : η ≤ u := hητ.trans (by nlinarith)
  have uM : u * 1 ≤ u * M := mul_le_mul_of_nonneg_left hM hu
  have big : ∀ {d' : V3 ℝ}, Sz3 (2 ^ 22 * M ^ 3) d' → 64 * (M * (size3 d' + 1)) ≤ Ω := by
    intro d' sd
    have h1 := size3_le sd
    have h2 : M * size3 d' ≤ M * (2 ^ 22 * M ^ 3) := mul_le_mul_of_nonneg_left h1 (by linarith)
    have h3 : M * (2 ^ 22 * M ^ 3) = 2 ^ 22 * M ^ 4 := by ring
    rw [h3] at h2
    linarith
  -- one question
  have ask : ∀ {d : V3 (Fl R)}, BdV R (2 ^ 22 * M ^ 3) d → ∃ a, SP.fromMinkowski ((s.toFl R).supportG (decF3 R D)) ((t.toFl R).supportG (decF3 R E)) d = .ok a ∧ BdV R (13 * M) a.v ∧
      NearPoint3 R (55 * (u * M)) (Image D.tr s.prim.Points) (Image E.tr t.prim.Points) a ∧
      (¬ Tiny3 R τ d → a.v.dot d ≤ 0 → NearlySeparated3 (3072 * (u * M)) (Image D.tr s.prim.Points) (Image E.tr t.prim.Points)) := by
    rintro d ⟨d', rfl, rd, sd⟩
    obtain ⟨a, a', ea, va, ra, sa, ⟨v, x, y, p, q, hp, hq, e, r, n1, n2, n3⟩, hmiss⟩ := mink3_near h hs ht hD hF hM rd (sz_size3 d') (big sd)
    refine ⟨a, ea, ⟨a', va, ra, sa⟩, ⟨v, x, y, p, q, hp, hq, e, r, n1.mono (by linarith), n2.mono (by linarith), n3.mono (by linarith)⟩, ?_⟩
    intro nd hle
    have hsz := not_tiny3 rd nd
    have nd' : d' ≠ 0 := by
      rintro rfl
      have : size3 (0 : V3 ℝ) = 0 := by simp [size3]
      linarith
    refine ⟨d', nd', fun p q hp hq => (hmiss hle p q hp hq).trans ?_⟩
    have hs0 := size3_nonneg d'
    have h1 : η ≤ u * size3 d' := hητ.trans (mul_le_mul_of_nonneg_left hsz hu)
    have h3 : η * M ≤ u * size3 d' * M := mul_le_mul_of_nonneg_right h1 (by linarith)
    have h4 : η * size3 d' ≤ u * size3 d' := mul_le_mul_of_nonneg_right hηu' hs0
    have h5 : u * size3 d' * 1 ≤ u * size3 d' * M := mul_le_mul_of_nonneg_left hM (mul_nonneg hu hs0)
    linarith
  -- the first direction
  have z0 : Rep3 R (0 : V3 ℝ) := ⟨rep_zero, rep_zero, rep_zero⟩
  have zs : Sz3 M (0 : V3 ℝ) := ⟨by simp; linarith, by simp; linarith, by simp; linarith⟩
  have first : BdV R (2 ^ 22 * M ^ 3) (firstDirectionG3 eps (pointG3 (decF3 R D) 0) (pointG3 (decF3 R E) 0)) := by
    obtain ⟨p, rp, sp, ep, -⟩ := point3_near h hD hM z0 zs (by linarith)
    obtain ⟨q, rq, sq, eq, -⟩ := point3_near h hF hM z0 zs (by linarith)
    have bp : BdV R (6 * M) (pointG3 (decF3 R D) 0) := ⟨p, by rw [← ep, toV3_zero], rp, sp⟩
    have bq : BdV R (6 * M) (pointG3 (decF3 R E) 0) := ⟨q, by rw [← eq, toV3_zero], rq, sq⟩
    unfold firstDirectionG3
    dsimp only
    split
    · refine ⟨⟨1, 1, 1⟩, ?_, ⟨rep_one, rep_one, rep_one⟩, ?_⟩
      · show _ = (⟨toF R 1, toF R 1, toF R 1⟩ : V3 (Fl R))
        rw [toF_one]
      · have : Sz3 1 (⟨1, 1, 1⟩ : V3 ℝ) := ⟨by simp, by simp, by simp⟩
        exact this.mono (by linarith)
    · exact (bq.sub h bp (by linarith) (by linarith) (by linarith)).mono (by linarith)
  rw [gjkRunG3_from, gjkRunG3_from]
  refine runFrom_refusing (Tiny3 R τ) (fun l d => BdV R (2 ^ 22 * M ^ 3) d ∧ ∀ p ∈ l, BdV R (13 * M) p.v ∧ NearPoint3 R (55 * (u * M)) (Image D.tr s.prim.Points) (Image E.tr t.prim.Points) p)
    (NearlySeparated3 (3072 * (u * M)) (Image D.tr s.prim.Points) (Image E.tr t.prim.Points))
    (fun x => x.length = 4 ∧ ∀ p ∈ x, NearPoint3 R (55 * (u * M)) (Image D.tr s.prim.Points) (Image E.tr t.prim.Points) p) ?_ n ?_
  · rintro l d ⟨hd, hl⟩
    obtain ⟨a, ea, ga, na, hmiss⟩ := ask hd
    have all : ∀ p ∈ l ++ [a], BdV R (13 * M) p.v ∧ NearPoint3 R (55 * (u * M)) (Image D.tr s.prim.Points) (Image E.tr t.prim.Points) p := by
      intro p hp
      rcases List.mem_append.1 hp with hp | hp
      · exact hl p hp
      · rw [List.mem_singleton.1 hp]
        exact ⟨ga, na⟩
    obtain ⟨k1, k2, k3⟩ := reduce3_bounded h hM hΩ (eps := eps) hT (fun p hp => (all p hp).1) hd
    exact ⟨a, ea, hmiss, fun _ => ⟨fun hr => ⟨k3 hr, fun p hp => (all p (k1 p hp)).2⟩, fun _ => ⟨k2, fun p hp => all p (k1 p hp)⟩⟩⟩
  · obtain ⟨a, ea, ga, na, hmiss⟩ := ask first
    exact ⟨a, ea, hmiss, fun _ => ⟨first.neg h (by linarith), by simpa using ⟨ga, na⟩⟩⟩
end three
end
end Verif.Scene
