import Verif.Minkowski.F64Gjk
import Verif.Dbvt.Binary64Err
/-!
# Rounded arithmetic keeps the grain of its inputs

A number that is a multiple of `N⁻ʲ` stays one when it is rounded, so a search direction of GJK that is not zero cannot be arbitrarily small: there is no underflow when the coordinates are multiples of
`2⁻¹⁷⁰`, which every `f64` of at least `2⁻¹¹⁷` is. Used by `RoundedMiss`.
-/
namespace Verif.Minkowski
open Verif Geom Primitive
open Verif.Dbvt (Rounding F64 binary64 Rep64)
set_option linter.unusedSectionVars false
noncomputable section
open Classical

/-- A multiple of `N⁻ʲ`. -/
def Gr (N j : ℕ) (x : ℝ) : Prop := ∃ m : ℤ, x * (N : ℝ) ^ j = m
/-- An infinity or a multiple of `N⁻ʲ`. -/
def GrE (N j : ℕ) (x : EReal) : Prop := x = ⊤ ∨ x = ⊥ ∨ ∃ y : ℝ, x = y ∧ Gr N j y

variable {N i j k : ℕ} {x y : ℝ}
theorem Gr.add (hx : Gr N j x) (hy : Gr N j y) : Gr N j (x + y) := by
  obtain ⟨m, hm⟩ := hx
  obtain ⟨n, hn⟩ := hy
  exact ⟨m + n, by rw [add_mul, hm, hn]; push_cast; ring⟩
theorem Gr.neg (hx : Gr N j x) : Gr N j (-x) := by
  obtain ⟨m, hm⟩ := hx
  exact ⟨-m, by rw [neg_mul, hm]; push_cast; ring⟩
theorem Gr.sub (hx : Gr N j x) (hy : Gr N j y) : Gr N j (x - y) := by
  rw [sub_eq_add_neg]
  exact hx.add hy.neg
theorem Gr.mul (hx : Gr N i x) (hy : Gr N j y) : Gr N (i + j) (x * y) := by
  obtain ⟨m, hm⟩ := hx
  obtain ⟨n, hn⟩ := hy
  exact ⟨m * n, by rw [pow_add, show x * y * ((N : ℝ) ^ i * N ^ j) = x * N ^ i * (y * N ^ j) by ring, hm, hn]; push_cast; ring⟩
theorem Gr.zero : Gr N j 0 := ⟨0, by simp⟩
theorem Gr.one : Gr N 0 1 := ⟨1, by simp⟩
theorem Gr.up (h : Gr N j x) (hjk : j ≤ k) : Gr N k x := by
  obtain ⟨m, hm⟩ := h
  obtain ⟨l, rfl⟩ := Nat.exists_eq_add_of_le hjk
  exact ⟨m * N ^ l, by rw [pow_add, ← mul_assoc, hm]; push_cast; ring⟩
/-- A multiple of the unit that is not zero is at least the unit. -/
theorem Gr.le_abs (h : Gr N j x) (hx : x ≠ 0) (hN : 0 < N) : 1 ≤ |x| * (N : ℝ) ^ j := by
  obtain ⟨m, hm⟩ := h
  have hp : (0 : ℝ) < (N : ℝ) ^ j := by positivity
  rw [← abs_of_pos hp, ← abs_mul, hm, ← Int.cast_abs]
  have : m ≠ 0 := by
    rintro rfl
    rw [Int.cast_zero] at hm
    exact (mul_ne_zero hx hp.ne') hm
  exact_mod_cast Int.one_le_abs this

theorem GrE.real (h : Gr N j x) : GrE N j (x : EReal) := Or.inr (Or.inr ⟨x, rfl, h⟩)
theorem GrE.gr (h : GrE N j (x : EReal)) : Gr N j x := by
  rcases h with h | h | ⟨y, h, hy⟩
  · exact absurd h (EReal.coe_ne_top x)
  · exact absurd h (EReal.coe_ne_bot x)
  · rwa [EReal.coe_injective h]
theorem GrE.up {x : EReal} (h : GrE N j x) (hjk : j ≤ k) : GrE N k x := by
  rcases h with h | h | ⟨y, h, hy⟩
  · exact Or.inl h
  · exact Or.inr (Or.inl h)
  · exact Or.inr (Or.inr ⟨y, h, hy.up hjk⟩)
theorem GrE.neg {x : EReal} (h : GrE N j x) : GrE N j (-x) := by
  rcases h with rfl | rfl | ⟨y, rfl, hy⟩
  · exact Or.inr (Or.inl EReal.neg_top)
  · exact Or.inl EReal.neg_bot
  · rw [← EReal.coe_neg]
    exact GrE.real hy.neg
theorem GrE.add {x y : EReal} (hx : GrE N j x) (hy : GrE N j y) : GrE N j (x + y) := by
  rcases hx with rfl | rfl | ⟨a, rfl, ha⟩
  · rcases hy with rfl | rfl | ⟨b, rfl, hb⟩
    · exact Or.inl (by simp)
    · exact Or.inr (Or.inl (by simp))
    · exact Or.inl (EReal.top_add_coe b)
  · exact Or.inr (Or.inl (EReal.bot_add y))
  · rcases hy with rfl | rfl | ⟨b, rfl, hb⟩
    · exact Or.inl (EReal.coe_add_top a)
    · exact Or.inr (Or.inl (EReal.add_bot _))
    · rw [← EReal.coe_add]
      exact GrE.real (ha.add hb)
theorem GrE.sub {x y : EReal} (hx : GrE N j x) (hy : GrE N j y) : GrE N j (x - y) := by
  rw [sub_eq_add_neg]
  exact hx.add hy.neg
theorem top_mul_gr {y : EReal} : GrE N j (⊤ * y) ∧ GrE N j (⊥ * y) := by
  rcases lt_trichotomy y 0 with h | rfl | h
  · exact ⟨Or.inr (Or.inl (EReal.top_mul_of_neg h)), Or.inl (EReal.bot_mul_of_neg h)⟩
  · rw [mul_zero, mul_zero]
    exact ⟨GrE.real Gr.zero, GrE.real Gr.zero⟩
  · exact ⟨Or.inl (EReal.top_mul_of_pos h), Or.inr (Or.inl (EReal.bot_mul_of_pos h))⟩
theorem GrE.mul {x y : EReal} (hx : GrE N i x) (hy : GrE N j y) : GrE N (i + j) (x * y) := by
  rcases hx with rfl | rfl | ⟨a, rfl, ha⟩
  · exact top_mul_gr.1
  · exact top_mul_gr.2
  · rcases hy with rfl | rfl | ⟨b, rfl, hb⟩
    · rw [mul_comm]
      exact top_mul_gr.1
    · rw [mul_comm]
      exact top_mul_gr.2
    · rw [← EReal.coe_mul]
      exact GrE.real (ha.mul hb)

variable {F : Type} [LinearOrder F] {R : Rounding F}
variable (R) in
/-- Rounding keeps multiples of `N⁻ʲ`, for `j` up to `J`. -/
def KeepsGr (N J : ℕ) : Prop := ∀ j ≤ J, ∀ x : ℝ, Gr N j x → GrE N j (R.val (R.rnd (x : EReal)))

/-- The number is infinite or a multiple of `N⁻ʲ`. -/
def GrF (N j : ℕ) (a : Fl R) : Prop := GrE N j (R.val a)
def GrV (N j : ℕ) (v : V2 (Fl R)) : Prop := GrF N j v.x ∧ GrF N j v.y
variable {J : ℕ} {a b : Fl R} {p q s : V2 (Fl R)}

theorem rnd_gr (h : KeepsGr R N J) (hj : j ≤ J) {x : EReal} (hx : GrE N j x) : GrF (R := R) N j (R.rnd x) := by
  rcases hx with rfl | rfl | ⟨y, rfl, hy⟩
  · refine Or.inl ?_
    rw [← R.val_inf, R.rnd_val]
  · refine Or.inr (Or.inl ?_)
    rw [← R.val_ninf, R.rnd_val]
  · exact h j hj y hy
theorem GrF.add (h : KeepsGr R N J) (hj : j ≤ J) (ha : GrF N j a) (hb : GrF N j b) : GrF N j (a + b) := rnd_gr h hj (GrE.add ha hb)
theorem GrF.sub (h : KeepsGr R N J) (hj : j ≤ J) (ha : GrF N j a) (hb : GrF N j b) : GrF N j (a - b) := rnd_gr h hj (GrE.sub ha hb)
theorem GrF.neg (h : KeepsGr R N J) (hj : j ≤ J) (ha : GrF N j a) : GrF N j (-a) := rnd_gr h hj (GrE.neg ha)
theorem GrF.mul (h : KeepsGr R N J) (hj : i + j ≤ J) (ha : GrF N i a) (hb : GrF N j b) : GrF N (i + j) (a * b) := rnd_gr h hj (GrE.mul ha hb)
theorem GrF.up (ha : GrF N j a) (hjk : j ≤ k) : GrF N k a := GrE.up ha hjk
theorem GrF.zero : GrF N j (0 : Fl R) := by
  show GrE N j (R.val R.zero)
  rw [R.val_zero]
  exact GrE.real Gr.zero
theorem GrF.one : GrF N j (1 : Fl R) := by
  show GrE N j (R.val R.one)
  rw [R.val_one]
  exact GrE.real (Gr.one.up (Nat.zero_le j))
theorem GrF.real (h : KeepsGr R N J) (hj : j ≤ J) (hx : Gr N j x) : GrF N j (toF R x) := rnd_gr h hj (GrE.real hx)
theorem GrF.gr (hx : Rep R x) (h : GrF N j (toF R x)) : Gr N j x := by
  unfold GrF at h
  rw [hx] at h
  exact h.gr

theorem GrV.up (hp : GrV N j p) (hjk : j ≤ k) : GrV N k p := ⟨hp.1.up hjk, hp.2.up hjk⟩
theorem GrV.add (h : KeepsGr R N J) (hj : j ≤ J) (hp : GrV N j p) (hq : GrV N j q) : GrV N j (p + q) := ⟨hp.1.add h hj hq.1, hp.2.add h hj hq.2⟩
theorem GrV.sub (h : KeepsGr R N J) (hj : j ≤ J) (hp : GrV N j p) (hq : GrV N j q) : GrV N j (p - q) := ⟨hp.1.sub h hj hq.1, hp.2.sub h hj hq.2⟩
theorem GrV.neg (h : KeepsGr R N J) (hj : j ≤ J) (hp : GrV N j p) : GrV N j (-p) := ⟨hp.1.neg h hj, hp.2.neg h hj⟩
theorem GrV.smul (h : KeepsGr R N J) (hj : i + j ≤ J) (hp : GrV N i p) (ha : GrF N j a) : GrV N (i + j) (p * a) := ⟨hp.1.mul h hj ha, hp.2.mul h hj ha⟩
theorem GrV.triple (h : KeepsGr R N J) (hp : GrV N 2 p) (hq : GrV N 2 q) (hs : GrV N 2 s) (hJ : 6 ≤ J) : GrV N 6 (tripleProductG p q s) := by
  have dot : ∀ {p : V2 (Fl R)}, GrV N 2 p → GrF N 4 (p.x * s.x + p.y * s.y) := fun hp => (hp.1.mul h (by omega) hs.1).add h (by omega) (hp.2.mul h (by omega) hs.2)
  constructor
  · exact (hq.1.mul (i := 2) (j := 4) h (by omega) (dot hp)).sub h (by omega) (hp.1.mul (i := 2) (j := 4) h (by omega) (dot hq))
  · exact (hq.2.mul (i := 2) (j := 4) h (by omega) (dot hp)).sub h (by omega) (hp.2.mul (i := 2) (j := 4) h (by omega) (dot hq))

/-- A step of GJK keeps the grain. -/
theorem reduce_gr (h : KeepsGr R N J) (hJ : 6 ≤ J) {eps : Fl R} {l : List (SP (V2 (Fl R)))} {d : V2 (Fl R)} (hl : ∀ p ∈ l, GrV N 2 p.v) (hd : GrV N 6 d) :
    (∀ p ∈ (reduceG2 eps l d).2.1, GrV N 2 p.v) ∧ GrV N 6 (reduceG2 eps l d).2.2 := by
  match l with
  | [] => exact ⟨hl, hd⟩
  | [_] => exact ⟨hl, hd⟩
  | _ :: _ :: _ :: _ :: _ => exact ⟨hl, hd⟩
  | [s0, s1] =>
    have h0 := hl s0 (by simp)
    have h1 := hl s1 (by simp)
    have hab := h0.sub h (by omega) h1
    unfold reduceG2
    dsimp only
    refine ⟨hl, ?_⟩
    split
    · exact ⟨(hab.2.neg h (by omega)).up (by omega), hab.1.up (by omega)⟩
    · exact hab.triple h (h1.neg h (by omega)) hab hJ
  | [s0, s1, s2] =>
    have h0 := hl s0 (by simp)
    have h1 := hl s1 (by simp)
    have h2 := hl s2 (by simp)
    have hab := h1.sub h (by omega) h2
    have hac := h0.sub h (by omega) h2
    unfold reduceG2
    dsimp only
    split
    · exact ⟨by simp [h1, h2], hac.triple h hab hab hJ⟩
    · split
      · exact ⟨by simp [h0, h2], hab.triple h hac hac hJ⟩
      · exact ⟨hl, hd⟩

/-- The transform has entries on the grain. -/
structure Grained (N : ℕ) (D : Dec2 (Fl R)) : Prop where
  scale : GrF N 0 D.scale
  r0 : GrV N 1 D.rot.c0
  r1 : GrV N 1 D.rot.c1
  disp : GrV N 2 D.disp
theorem point_gr (h : KeepsGr R N J) (hJ : 2 ≤ J) {D : Dec2 (Fl R)} (hD : Grained N D) (hp : GrV N 1 p) : GrV N 2 (pointG2 D p) := by
  have h1 : GrV N 1 (p * D.scale) := hp.smul h (by omega) hD.scale
  exact GrV.add h (by omega) (GrV.add h (by omega) (hD.r0.smul (i := 1) (j := 1) h (by omega) h1.1) (hD.r1.smul (i := 1) (j := 1) h (by omega) h1.2)) hD.disp
theorem maxPoint_gr {vs : List (V2 (Fl R))} (hv : ∀ v ∈ vs, GrV N j v) (e : V2 (Fl R)) : GrV N j (maxPointG2 vs e) := by
  unfold maxPointG2
  have key : ∀ (vs : List (V2 (Fl R))) (acc : V2 (Fl R) × Option (Fl R)), (∀ v ∈ vs, GrV N j v) → GrV N j acc.1 → GrV N j (vs.foldl (maxStepG2 e) acc).1 := by
    intro vs
    induction vs with
    | nil => exact fun acc _ ha => ha
    | cons v vs ih =>
      intro acc hv ha
      refine ih _ (fun w hw => hv w (List.mem_cons_of_mem _ hw)) ?_
      have h1 := hv v List.mem_cons_self
      unfold maxStepG2
      split
      · exact h1
      · split
        · exact h1
        · exact ha
  exact key vs _ hv ⟨GrF.zero, GrF.zero⟩

/-- The points of the shape are on the grain, in the shape's frame. -/
def Flat2.Grained (N : ℕ) : Flat2 (Fl R) → Prop
  | .particle => True
  | .line l => GrV N 1 l.origin ∧ GrV N 1 l.dest
  | .rectangle w k => ∀ v ∈ cornersG ⟨w, k⟩, GrV N 1 v
  | .square w => ∀ v ∈ cornersG ⟨w, w⟩, GrV N 1 v
  | .polygon vs => ∀ v ∈ vs, GrV N 1 v
theorem local_gr {s : Flat2 (Fl R)} (hs : s.Grained N) (e : V2 (Fl R)) : GrV N 1 (s.localG e) := by
  cases s with
  | particle => exact ⟨GrF.zero, GrF.zero⟩
  | line l =>
    show GrV N 1 (if _ then l.dest else l.origin)
    split
    · exact hs.2
    · exact hs.1
  | rectangle w k => exact maxPoint_gr hs e
  | square w => exact maxPoint_gr hs e
  | polygon vs => exact maxPoint_gr hs e
theorem support_gr (h : KeepsGr R N J) (hJ : 2 ≤ J) {s : Flat2 (Fl R)} (hs : s.Grained N) {D : Dec2 (Fl R)} (hD : Grained N D) {d : V2 (Fl R)} (hp : s.supportG D d = .ok p) : GrV N 2 p := by
  have hl := local_gr hs
  cases s with
  | particle =>
    injection hp with hp
    rw [← hp]
    exact point_gr h hJ hD (hl 0)
  | _ =>
    unfold Flat2.supportG at hp
    dsimp only at hp
    obtain ⟨e, -, he⟩ := Res.bind_eq_ok.1 hp
    injection he with he
    rw [← he]
    exact point_gr h hJ hD (hl e)
theorem mink_gr (h : KeepsGr R N J) (hJ : 2 ≤ J) {s t : Flat2 (Fl R)} (hs : s.Grained N) (ht : t.Grained N) {D E : Dec2 (Fl R)} (hD : Grained N D) (hE : Grained N E) {d : V2 (Fl R)} {a : SP (V2 (Fl R))}
    (ha : SP.fromMinkowski (s.supportG D) (t.supportG E) d = .ok a) : GrV N 2 a.v := by
  unfold SP.fromMinkowski at ha
  obtain ⟨p, hp, ha⟩ := Res.bind_eq_ok.1 ha
  obtain ⟨q, hq, ha⟩ := Res.bind_eq_ok.1 ha
  injection ha with ha
  rw [← ha]
  exact (support_gr h hJ hs hD hp).sub h hJ (support_gr h hJ ht hE hq)
theorem first_gr (h : KeepsGr R N J) (hJ : 2 ≤ J) {eps : Fl R} (hp : GrV N 2 p) (hq : GrV N 2 q) : GrV N 6 (firstDirectionG2 eps p q) := by
  unfold firstDirectionG2
  dsimp only
  split
  · exact ⟨GrF.one, GrF.one⟩
  · exact (hq.sub h hJ hp).up (by omega)

/-! ## `f64` -/
open Verif.Dbvt (rnd64 rnd64_nearest lt_over64 over64)

/-- `f64` keeps multiples of `2⁻ᵏʲ` while `k j ≤ 1074`. -/
theorem keeps64 {k J : ℕ} (hk : k * J ≤ 1074) : KeepsGr binary64 (2 ^ k) J := by
  intro j hj x hx
  show GrE (2 ^ k) j (rnd64 (x : EReal)).1
  rcases Dbvt.f64_cases (rnd64 (x : EReal)) with e | e | ⟨r, hr, e⟩
  · rw [e]
    exact Or.inr (Or.inl rfl)
  · rw [e]
    exact Or.inl rfl
  · rw [e]
    refine GrE.real ?_
    obtain ⟨m, hm⟩ := hx
    have hkj : k * j ≤ 1074 := (Nat.mul_le_mul_left k hj).trans hk
    have hp : (0 : ℝ) < 2 ^ (k * j) := by positivity
    have hN : ((2 ^ k : ℕ) : ℝ) ^ j = 2 ^ (k * j) := by push_cast; rw [pow_mul]
    rw [hN] at hm
    have ex : x = m * (2 : ℝ) ^ (-((k * j : ℕ) : ℤ)) := by
      rw [zpow_neg, zpow_natCast, ← hm]
      field_simp
    by_cases hs : |m| ≤ 2 ^ 53
    · -- the number is representable
      have rx : Rep64 x := by
        rw [ex]
        exact Dbvt.rep64_le hs (by omega) (by omega)
      have : rnd64 (x : EReal) = Dbvt.F64.fin x rx := binary64.rnd_val (Dbvt.F64.fin x rx)
      rw [e] at this
      have : r = x := Dbvt.fin_inj this
      rw [this]
      exact ⟨m, by rw [hN, hm]⟩
    · -- the number is so large that all representable numbers near it are multiples
      push Not at hs
      have hq : (0 : ℝ) < (2 : ℝ) ^ (-((k * j : ℕ) : ℤ)) := zpow_pos (by norm_num) _
      have big : (2 : ℝ) ^ 53 * (2 : ℝ) ^ (-((k * j : ℕ) : ℤ)) ≤ |r| := by
        have mono : ∀ {a : ℝ} (ha : Rep64 a), a ≤ x → a ≤ r := by
          intro a ha h
          have h1 : rnd64 (a : EReal) ≤ rnd64 (x : EReal) := binary64.rnd_mono (EReal.coe_le_coe_iff.2 h)
          have h2 : rnd64 (a : EReal) = Dbvt.F64.fin a ha := binary64.rnd_val (Dbvt.F64.fin a ha)
          rw [h2, e] at h1
          exact Dbvt.fin_le.1 h1
        have anti : ∀ {a : ℝ} (ha : Rep64 a), x ≤ a → r ≤ a := by
          intro a ha h
          have h1 : rnd64 (x : EReal) ≤ rnd64 (a : EReal) := binary64.rnd_mono (EReal.coe_le_coe_iff.2 h)
          have h2 : rnd64 (a : EReal) = Dbvt.F64.fin a ha := binary64.rnd_val (Dbvt.F64.fin a ha)
          rw [h2, e] at h1
          exact Dbvt.fin_le.1 h1
        have rb : Rep64 (((2 ^ 53 : ℤ) : ℝ) * (2 : ℝ) ^ (-((k * j : ℕ) : ℤ))) := Dbvt.rep64_le (by norm_num) (by omega) (by omega)
        have hb : ((2 ^ 53 : ℤ) : ℝ) = 2 ^ 53 := by norm_num
        rcases lt_abs.1 hs with h | h
        · have h' : ((2 ^ 53 : ℤ) : ℝ) < m := by exact_mod_cast h
          have := mono rb (by rw [ex]; exact mul_le_mul_of_nonneg_right h'.le hq.le)
          rw [hb] at this
          exact this.trans (le_abs_self r)
        · have h' : ((2 ^ 53 : ℤ) : ℝ) < -(m : ℝ) := by exact_mod_cast h
          have := anti (Dbvt.rep64_neg rb) (by
            rw [ex]
            have := mul_le_mul_of_nonneg_right h'.le hq.le
            linarith)
          rw [hb] at this
          have := neg_le_abs r
          linarith
      obtain ⟨n, f, h1, h2, h3, rfl⟩ := hr
      have hf0 : (0 : ℝ) < (2 : ℝ) ^ f := zpow_pos (by norm_num) f
      have hf : -((k * j : ℕ) : ℤ) ≤ f := by
        by_contra hlt
        push Not at hlt
        have h4 : (2 : ℝ) ^ f < (2 : ℝ) ^ (-((k * j : ℕ) : ℤ)) := zpow_lt_zpow_right₀ (by norm_num) hlt
        rw [abs_mul, abs_of_pos hf0] at big
        have h5 : |(n : ℝ)| < 2 ^ 53 := by
          have : ((|n| : ℤ) : ℝ) < ((2 ^ 53 : ℤ) : ℝ) := Int.cast_lt.2 h1
          rw [Int.cast_abs] at this
          have hb : ((2 ^ 53 : ℤ) : ℝ) = 2 ^ 53 := by norm_num
          rwa [hb] at this
        have h6 : |(n : ℝ)| * (2 : ℝ) ^ f ≤ 2 ^ 53 * (2 : ℝ) ^ f := mul_le_mul_of_nonneg_right h5.le hf0.le
        have h7 : (2 : ℝ) ^ 53 * (2 : ℝ) ^ f < 2 ^ 53 * (2 : ℝ) ^ (-((k * j : ℕ) : ℤ)) := mul_lt_mul_of_pos_left h4 (by positivity)
        linarith
      obtain ⟨l, hl⟩ := Int.eq_ofNat_of_zero_le (show 0 ≤ f + ((k * j : ℕ) : ℤ) by omega)
      refine ⟨n * 2 ^ l, ?_⟩
      rw [hN, mul_assoc, ← zpow_natCast, ← zpow_add₀ (by norm_num), hl]
      push_cast
      rw [zpow_natCast]
end
end Verif.Minkowski
