import Verif.Minkowski.Gjk2
/-!
# GJK in 2D terminates on shapes with finitely many support points (C65)
-/
namespace Verif.Minkowski
open Verif Geom Primitive
set_option linter.unusedSectionVars false
variable {K : Type} [Field K] [LinearOrder K] [IsStrictOrderedRing K]

/-- `f` only ever answers with points of the list `F`, which belong to the shape `S`. -/
def FiniteSupport2 (f : V2 K → Res (V2 K)) (S : V2 K → Prop) (F : List (V2 K)) : Prop :=
  (∀ p ∈ F, S p) ∧ ∀ d p, f d = .ok p → p ∈ F

/-- Coordinates of a point in the frame of a triangle. -/
theorem triangle_coords {a b c : V2 K} (hD : (b - a).perpDot (c - a) ≠ 0) (x : V2 K) :
    ∃ β γ : K, x.x = a.x + β * (b.x - a.x) + γ * (c.x - a.x) ∧ x.y = a.y + β * (b.y - a.y) + γ * (c.y - a.y) := by
  refine ⟨(x - a).perpDot (c - a) / (b - a).perpDot (c - a), (b - a).perpDot (x - a) / (b - a).perpDot (c - a), ?_, ?_⟩
  · field_simp
    simp only [V2.perpDot, V2.sub_x, V2.sub_y]; ring
  · field_simp
    simp only [V2.perpDot, V2.sub_x, V2.sub_y]; ring

/-- The region beyond the new edge is inside the region beyond the old one. -/
theorem cap_nested {a b c x z d e : V2 K} (hbc : b ≠ c) (hlev : b.dot d = c.dot d) (hca : c.dot d < a.dot d) (hz : z.dot d < c.dot d)
    (he : e ≠ 0) (hae : a.dot e ≤ b.dot e) (hce : c.dot e ≤ b.dot e) (hxe : x.dot e ≤ b.dot e) (hze : z.dot e ≤ b.dot e)
    (hx : b.dot (tripleProduct (c - a) (b - a) (b - a)) < x.dot (tripleProduct (c - a) (b - a) (b - a))) : c.dot d < x.dot d := by
  by_contra hc
  push Not at hc
  have hD : (b - a).perpDot (c - a) ≠ 0 := tri_nondeg hbc hlev (by rw [hlev]; exact hca.ne')
  obtain ⟨β, γ, hxx, hxy⟩ := triangle_coords hD x
  have hγ : γ < 0 := by
    have h1 : x.dot (tripleProduct (c - a) (b - a) (b - a)) - b.dot (tripleProduct (c - a) (b - a) (b - a)) =
        -γ * ((b - a).perpDot (c - a) * (b - a).perpDot (c - a)) := by
      simp only [tripleProduct, V2.dot, V2.perpDot, V2.sub_x, V2.sub_y, hxx, hxy]; ring
    have h2 : 0 < (b - a).perpDot (c - a) * (b - a).perpDot (c - a) := mul_self_pos.2 hD
    by_contra h
    push Not at h
    have := mul_nonneg h h2.le
    linarith
  have hsum : 1 ≤ β + γ := by
    have h1 : x.dot d = a.dot d + (β + γ) * (c.dot d - a.dot d) := by
      simp only [V2.dot, hxx, hxy] at hlev ⊢
      linear_combination β * hlev
    by_contra h
    push Not at h
    nlinarith
  have hxe' : x.dot e - b.dot e = (β + γ - 1) * (b.dot e - a.dot e) + (-γ) * (b.dot e - c.dot e) := by
    simp only [V2.dot, hxx, hxy]; ring
  have hQ : b.dot e - c.dot e = 0 := by
    have h1 : 0 ≤ (β + γ - 1) * (b.dot e - a.dot e) := mul_nonneg (by linarith) (by linarith)
    have h2 : 0 ≤ (-γ) * (b.dot e - c.dot e) := mul_nonneg (by linarith) (by linarith)
    have h3 : (-γ) * (b.dot e - c.dot e) = 0 := by linarith
    exact (mul_eq_zero.1 h3).resolve_left (by linarith)
  have hP : a.dot e < b.dot e := by
    refine lt_of_le_of_ne hae fun h => he ?_
    have h1 : (b - a).perpDot (c - a) * e.x = 0 := by
      simp only [V2.dot, V2.perpDot, V2.sub_x, V2.sub_y] at h hQ ⊢
      linear_combination (b.y - c.y) * h + (b.y - a.y) * hQ
    have h2 : (b - a).perpDot (c - a) * e.y = 0 := by
      simp only [V2.dot, V2.perpDot, V2.sub_x, V2.sub_y] at h hQ ⊢
      linear_combination (c.x - b.x) * h - (b.x - a.x) * hQ
    ext
    · exact (mul_eq_zero.1 h1).resolve_left hD
    · exact (mul_eq_zero.1 h2).resolve_left hD
  have hpar : e.x * d.y - e.y * d.x = 0 := by
    have h1 : (b.x - c.x) * (e.x * d.y - e.y * d.x) = 0 := by
      simp only [V2.dot] at hlev hQ
      linear_combination d.y * hQ - e.y * hlev
    have h2 : (b.y - c.y) * (e.x * d.y - e.y * d.x) = 0 := by
      simp only [V2.dot] at hlev hQ
      linear_combination -d.x * hQ + e.x * hlev
    by_contra h
    apply hbc
    ext
    · exact sub_eq_zero.1 ((mul_eq_zero.1 h1).resolve_right h)
    · exact sub_eq_zero.1 ((mul_eq_zero.1 h2).resolve_right h)
  have key : ∀ w : V2 K, w.dot e * d.dot d = w.dot d * e.dot d := by
    intro w
    simp only [V2.dot]
    linear_combination (w.x * d.y - w.y * d.x) * hpar
  have ka := key a
  have kb := key b
  have kz := key z
  have hdd : 0 < d.dot d := dot_self_pos2 (by
    rintro rfl
    simp [V2.dot] at hca)
  have hed : e.dot d < 0 := by
    by_contra h
    push Not at h
    nlinarith [mul_pos (sub_pos.2 hP) hdd, mul_nonneg (sub_nonneg.2 (hlev.trans_lt hca).le) h]
  nlinarith [mul_nonneg (sub_nonneg.2 hze) hdd.le, mul_pos (sub_pos.2 (hz.trans_eq hlev.symm)) (neg_pos.2 hed)]

section
variable (L R : V2 K → Prop) (F : List (V2 K))

/-- How many points of `F` lie beyond the line of level `s · d`. -/
def capCount (d s : V2 K) : Nat := (F.filter fun x => s.dot d < x.dot d).length

/-- The states of the loop with a bound on the iterations left. -/
inductive RInv2 : Nat → List (SP (V2 K)) → V2 K → Prop
  | one {s0 d} : d ≠ 0 → FromShapes2 L R s0 → Ext2 L R s0.v → s0.v.dot d < 0 → RInv2 (F.length + 2) [s0] d
  | first {s0 s1 d} : EdgeInv L R s0 s1 d → RInv2 (F.length + 1) [s0, s1] d
  | later {s0 s1 d} : EdgeInv L R s0 s1 d → (∃ z, Mink2 L R z ∧ z.dot d < s0.v.dot d) → RInv2 (capCount F d s0.v) [s0, s1] d

variable {L R F}
theorem RInv2.d_ne {k : Nat} {s : List (SP (V2 K))} {d : V2 K} (h : RInv2 L R F k s d) : d ≠ 0 := by
  cases h with
  | one h => exact h
  | first h => exact h.d_ne
  | later h => exact h.d_ne

theorem filter_length_lt {α : Type} {F : List α} {p q : α → Bool} (h : ∀ x ∈ F, q x = true → p x = true) {a : α} (ha : a ∈ F) (hp : p a = true)
    (hq : q a = false) : (F.filter q).length < (F.filter p).length := by
  induction F with
  | nil => simp at ha
  | cons y ys ih =>
    have hle : ∀ l : List α, (∀ x ∈ l, q x = true → p x = true) → (l.filter q).length ≤ (l.filter p).length := by
      intro l hl
      induction l with
      | nil => simp
      | cons z zs ih =>
        have h1 := hl z (by simp)
        have h2 := ih fun x hx => hl x (by simp [hx])
        cases hqz : q z <;> cases hpz : p z <;> simp [List.filter_cons, hqz, hpz] <;> simp_all <;> omega
    have h0 := h y (by simp)
    have h3 := hle ys fun x hx => h x (by simp [hx])
    rcases List.mem_cons.1 ha with rfl | hm
    · simp [List.filter_cons, hp, hq]; omega
    · have := ih (fun x hx => h x (by simp [hx])) hm
      cases hqz : q y <;> cases hpz : p y <;> simp [List.filter_cons, hqz, hpz] <;> simp_all <;> omega

theorem rstep {left right : V2 K → Res (V2 K)} (hl : SupportFn2 left L) (hr : SupportFn2 right R) (hF : ∀ x ∈ F, Mink2 L R x)
    (hsup : ∀ d a, SP.fromMinkowski left right d = .ok a → a.v ∈ F) (k : Nat) (s : List (SP (V2 K))) (d : V2 K)
    (h : RInv2 L R F k s d) : ∃ a, SP.fromMinkowski left right d = .ok a ∧
      (0 < Inner.dot a.v d → (reduce2 (s ++ [a]) d).1 = false →
        ∃ k' < k, RInv2 L R F k' (reduce2 (s ++ [a]) d).2.1 (reduce2 (s ++ [a]) d).2.2) := by
  obtain ⟨a, ha, hf, hs⟩ := minkowski2 hl hr h.d_ne
  refine ⟨a, ha, fun hp hff => ?_⟩
  have haF := hsup d a ha
  cases h with
  | one hd h0 he hn =>
    obtain ⟨e1, e2, e3⟩ := first_edge h0 he hd hn hf hs hp
    refine ⟨F.length + 1, by omega, ?_⟩
    show RInv2 L R F _ (reduce2 [_, a] d).2.1 _
    rw [e2]
    exact .first e3
  | @first s0 s1 _ he =>
    obtain ⟨t0, t0', ht, e1, e2, e3⟩ := (edge_next he hf hs hp).2 hff
    refine ⟨capCount F (reduce2 [s0, s1, a] d).2.2 t0.v, ?_, ?_⟩
    · have := List.length_filter_le (fun x => decide (t0.v.dot (reduce2 [s0, s1, a] d).2.2 < x.dot (reduce2 [s0, s1, a] d).2.2)) F
      unfold capCount; omega
    show RInv2 L R F _ (reduce2 [s0, s1, a] d).2.1 _
    rw [e1]
    refine .later e2 ⟨t0'.v, ?_, e3⟩
    rcases ht with ⟨_, rfl⟩ | ⟨_, rfl⟩
    · exact he.from0.mink
    · exact he.from1.mink
  | @later s0 s1 _ he hz =>
    obtain ⟨z, hzM, hz⟩ := hz
    obtain ⟨t0, t0', ht, e1, e2, e3⟩ := (edge_next he hf hs hp).2 hff
    have hca : s0.v.dot d < a.v.dot d := lt_of_le_of_lt he.origin hp
    refine ⟨capCount F (reduce2 [s0, s1, a] d).2.2 t0.v, ?_, ?_⟩
    · unfold capCount
      apply filter_length_lt _ haF
      · simpa using hca
      · have := e2.level
        simp [this]
      · intro x hxF hx
        simp only [decide_eq_true_eq] at hx ⊢
        have hxM := hF x hxF
        rcases ht with ⟨h1, h2⟩ | ⟨h1, h2⟩
        · have hr : (reduce2 [s0, s1, a] d).2.2 = tripleProduct (s0.v - a.v) (s1.v - a.v) (s1.v - a.v) := by
            by_cases hc : (tripleProduct (s0.v - a.v) (s1.v - a.v) (s1.v - a.v)).dot (-a.v) > 0
            · simp only [reduce2, if_pos hc]
            · exfalso
              by_cases hc2 : (tripleProduct (s1.v - a.v) (s0.v - a.v) (s0.v - a.v)).dot (-a.v) > 0
              · simp only [reduce2, if_neg hc, if_pos hc2, List.cons.injEq, and_true] at e1
                have := he.ne
                rw [e1, h1] at this
                exact this rfl
              · simp only [List.cons_append, List.nil_append, reduce2, if_neg hc, if_neg hc2] at hff
                cases hff
          rw [hr, h1] at hx
          obtain ⟨e, he0, hee⟩ := he.ext1
          exact cap_nested he.ne.symm he.level.symm hca hz he0 (hee _ hf.mink) (hee _ he.from0.mink) (hee _ hxM) (hee _ hzM) hx
        · have hr : (reduce2 [s0, s1, a] d).2.2 = tripleProduct (s1.v - a.v) (s0.v - a.v) (s0.v - a.v) := by
            by_cases hc : (tripleProduct (s0.v - a.v) (s1.v - a.v) (s1.v - a.v)).dot (-a.v) > 0
            · exfalso
              simp only [reduce2, if_pos hc, List.cons.injEq, and_true] at e1
              have := he.ne
              rw [e1, h1] at this
              exact this rfl
            · by_cases hc2 : (tripleProduct (s1.v - a.v) (s0.v - a.v) (s0.v - a.v)).dot (-a.v) > 0
              · simp only [reduce2, if_neg hc, if_pos hc2]
              · simp only [List.cons_append, List.nil_append, reduce2, if_neg hc, if_neg hc2] at hff
                cases hff
          rw [hr, h1] at hx
          obtain ⟨e, he0, hee⟩ := he.ext0
          rw [he.level]
          exact cap_nested he.ne he.level (he.level ▸ hca) (he.level ▸ hz) he0 (hee _ hf.mink) (hee _ he.from1.mink) (hee _ hxM) (hee _ hzM) hx
    show RInv2 L R F _ (reduce2 [s0, s1, a] d).2.1 _
    rw [e1]
    refine .later e2 ⟨t0'.v, ?_, e3⟩
    rcases ht with ⟨_, rfl⟩ | ⟨_, rfl⟩
    · exact he.from0.mink
    · exact he.from1.mink
end

/-- C65. For two shapes whose support functions take at most `m` and `n` values (polygons with `m` and `n` vertices), GJK in 2D
never runs out of iterations when it may do at least `m * n + 3` of them. -/
theorem c65 (L R : V2 K → Prop) {left right : V2 K → Res (V2 K)} (hl : SupportFn2 left L) (hr : SupportFn2 right R)
    (FL FR : List (V2 K)) (hFL : FiniteSupport2 left L FL) (hFR : FiniteSupport2 right R FR)
    (maxIterations : Nat) (hn : FL.length * FR.length + 3 ≤ maxIterations) (leftPos rightPos : V2 K) :
    gjkRun reduce2 maxIterations left right leftPos rightPos ≠ .ok .exhausted := by
  rcases gjk2_start hl hr maxIterations leftPos rightPos with ⟨h1, _⟩ | ⟨a, h1, h2⟩
  · rw [h1]; simp
  · rw [h1]
    set F := FL.flatMap fun l => FR.map fun r => l - r with hF
    have hlen : F.length = FL.length * FR.length := by
      rw [hF]; simp [List.length_flatMap]
    refine gjkLoop_total (RInv2 L R F) (rstep hl hr ?_ ?_) maxIterations (F.length + 2) _ _ ?_ (by omega)
    · intro x hx
      rw [hF] at hx
      simp only [List.mem_flatMap, List.mem_map] at hx
      obtain ⟨l, hl1, r, hr1, rfl⟩ := hx
      exact ⟨l, r, hFL.1 l hl1, hFR.1 r hr1, rfl⟩
    · intro d a ha
      unfold SP.fromMinkowski at ha
      rw [Res.bind_eq_ok] at ha
      obtain ⟨l, hl1, ha⟩ := ha
      rw [Res.bind_eq_ok] at ha
      obtain ⟨r, hr1, ha⟩ := ha
      cases ha
      rw [hF]
      simp only [List.mem_flatMap, List.mem_map]
      exact ⟨l, hFL.2 _ _ hl1, r, hFR.2 _ _ hr1, rfl⟩
    · cases h2 with
      | one a b c d => exact .one a b c d

/-- C52, C53, C65 together. For polygons and enough iterations the answer of GJK is exact: a simplex is returned only when the shapes share
a point, and no simplex only when a line separates them. -/
theorem c65_exact (L R : V2 K → Prop) (hL : Convex2 L) (hR : Convex2 R) {left right : V2 K → Res (V2 K)} (hl : SupportFn2 left L)
    (hr : SupportFn2 right R) (FL FR : List (V2 K)) (hFL : FiniteSupport2 left L FL) (hFR : FiniteSupport2 right R FR)
    (maxIterations : Nat) (hn : FL.length * FR.length + 3 ≤ maxIterations) (leftPos rightPos : V2 K) :
    ∃ o, gjkIntersect reduce2 maxIterations left right leftPos rightPos = .ok o ∧
      (o.isSome → ∃ x, L x ∧ R x) ∧ (o = none → Separated2 L R) := by
  obtain ⟨o, h1, h2⟩ := c53_2d L R hL hR hl hr maxIterations leftPos rightPos
  refine ⟨o, h1, ?_, ?_⟩
  · intro hs
    obtain ⟨s, rfl⟩ := Option.isSome_iff_exists.1 hs
    exact (h2 s rfl).1
  · rintro rfl
    unfold gjkIntersect at h1
    rw [Res.bind_eq_ok] at h1
    obtain ⟨r, hr1, hr2⟩ := h1
    cases r with
    | hit t => cases hr2
    | miss => exact c52_2d L R hl hr _ _ _ hr1
    | exhausted => exact absurd hr1 (c65 L R hl hr FL FR hFL hFR maxIterations hn leftPos rightPos)
end Verif.Minkowski
