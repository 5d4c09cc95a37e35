import Verif.Minkowski.Epa3Shapes
import Mathlib.Combinatorics.Pigeonhole
/-!
# Does GJK in 3D come to an end? (C83)

In 3D GJK can go round in a circle.  For polytopes the search is over after a number of iterations that only depends on the numbers of their
vertices, in the sense that more iterations never change the answer; but there are two boxes that overlap and for which the search never ends,
whatever the limit is, so that they are reported as not colliding.
-/
namespace Verif.Minkowski
open Verif Geom Primitive
set_option linter.unusedSectionVars false

section generic
variable {V K : Type} [Neg V] [Sub V] [Zero V] [DecidableEq V] [Zero K] [LinearOrder K] [Inner V K]

/-- `k` iterations of the loop of `gjkLoop` that do not decide: the state they lead to, `none` if one of them decides or panics. -/
def gjkAdvance (reduce : List (SP V) → V → Bool × List (SP V) × V) (left right : V → Res V) : Nat → List (SP V) → V → Option (List (SP V) × V)
  | 0, simplex, d => some (simplex, d)
  | n + 1, simplex, d =>
    match SP.fromMinkowski left right d with
    | .ok a => if Inner.dot a.v d ≤ 0 then none else
        let r := reduce (simplex ++ [a]) d
        if r.1 then none else gjkAdvance reduce left right n r.2.1 r.2.2
    | _ => none

variable {reduce : List (SP V) → V → Bool × List (SP V) × V} {left right : V → Res V}

theorem loop_advance {k : Nat} {s s' : List (SP V)} {d d' : V} (h : gjkAdvance reduce left right k s d = some (s', d')) (n : Nat) :
    gjkLoop reduce left right (k + n) s d = gjkLoop reduce left right n s' d' := by
  induction k generalizing s d with
  | zero => cases h; rw [Nat.zero_add]
  | succ k ih =>
    rw [Nat.succ_add]
    unfold gjkAdvance at h
    conv_lhs => unfold gjkLoop
    cases ha : SP.fromMinkowski left right d with
    | panic => rw [ha] at h; cases h
    | timeout => rw [ha] at h; cases h
    | ok a =>
      rw [ha] at h
      dsimp only at h
      rw [Res.bind_ok]
      by_cases h1 : Inner.dot a.v d ≤ 0
      · rw [if_pos h1] at h; cases h
      · rw [if_neg h1] at h ⊢
        dsimp only
        by_cases h2 : (reduce (s ++ [a]) d).1 = true
        · rw [if_pos h2] at h; cases h
        · rw [if_neg h2] at h ⊢
          exact ih h

theorem loop_decided {k : Nat} {s : List (SP V)} {d : V} (h : gjkAdvance reduce left right k s d = none) (n : Nat) :
    gjkLoop reduce left right (k + n) s d = gjkLoop reduce left right k s d := by
  induction k generalizing s d with
  | zero => cases h
  | succ k ih =>
    rw [Nat.succ_add]
    unfold gjkAdvance at h
    unfold gjkLoop
    cases ha : SP.fromMinkowski left right d with
    | panic => rfl
    | timeout => rfl
    | ok a =>
      rw [ha] at h
      dsimp only at h
      rw [Res.bind_ok, Res.bind_ok]
      by_cases h1 : Inner.dot a.v d ≤ 0
      · rw [if_pos h1, if_pos h1]
      · rw [if_neg h1] at h
        rw [if_neg h1, if_neg h1]
        dsimp only
        by_cases h2 : (reduce (s ++ [a]) d).1 = true
        · rw [if_pos h2, if_pos h2]
        · rw [if_neg h2] at h
          rw [if_neg h2, if_neg h2]
          exact ih h

theorem advance_add {k : Nat} {s s' : List (SP V)} {d d' : V} (h : gjkAdvance reduce left right k s d = some (s', d')) (n : Nat) :
    gjkAdvance reduce left right (k + n) s d = gjkAdvance reduce left right n s' d' := by
  induction k generalizing s d with
  | zero => cases h; rw [Nat.zero_add]
  | succ k ih =>
    rw [Nat.succ_add]
    unfold gjkAdvance at h
    conv_lhs => unfold gjkAdvance
    cases ha : SP.fromMinkowski left right d with
    | panic => rw [ha] at h; cases h
    | timeout => rw [ha] at h; cases h
    | ok a =>
      rw [ha] at h
      dsimp only at h ⊢
      by_cases h1 : Inner.dot a.v d ≤ 0
      · rw [if_pos h1] at h; cases h
      · rw [if_neg h1] at h ⊢
        by_cases h2 : (reduce (s ++ [a]) d).1 = true
        · rw [if_pos h2] at h; cases h
        · rw [if_neg h2] at h ⊢
          exact ih h

theorem advance_le {k n : Nat} {s : List (SP V)} {d : V} {S : List (SP V) × V} (h : gjkAdvance reduce left right k s d = some S) (hn : n ≤ k) :
    ∃ s' d', gjkAdvance reduce left right n s d = some (s', d') := by
  cases e : gjkAdvance reduce left right n s d with
  | some S' => exact ⟨S'.1, S'.2, rfl⟩
  | none =>
    exfalso
    have hc : ∀ (j m : Nat) (s : List (SP V)) (d : V), gjkAdvance reduce left right j s d = none → gjkAdvance reduce left right (j + m) s d = none := by
      intro j m
      induction j with
      | zero => intro s d h; cases h
      | succ j ih =>
        intro s d h
        rw [Nat.succ_add]
        unfold gjkAdvance at h ⊢
        cases ha : SP.fromMinkowski left right d with
        | panic => rfl
        | timeout => rfl
        | ok a =>
          rw [ha] at h
          dsimp only at h ⊢
          by_cases h1 : Inner.dot a.v d ≤ 0
          · rw [if_pos h1]
          · rw [if_neg h1] at h ⊢
            by_cases h2 : (reduce (s ++ [a]) d).1 = true
            · rw [if_pos h2]
            · rw [if_neg h2] at h ⊢
              exact ih _ _ h
    have := hc n (k - n) s d e
    rw [Nat.add_sub_cancel' hn, h] at this
    cases this

theorem loop_le {k n : Nat} {s : List (SP V)} {d : V} {S : List (SP V) × V} (h : gjkAdvance reduce left right k s d = some S) (hn : n ≤ k) :
    gjkLoop reduce left right n s d = .ok .exhausted := by
  obtain ⟨s', d', e⟩ := advance_le h hn
  have := loop_advance e 0
  rw [Nat.add_zero] at this
  rw [this]; rfl

/-- A state that is reached again: the loop never decides. -/
theorem loop_cycle {p : Nat} (hp : 0 < p) {s : List (SP V)} {d : V} (h : gjkAdvance reduce left right p s d = some (s, d)) (n : Nat) :
    gjkLoop reduce left right n s d = .ok .exhausted := by
  induction n using Nat.strong_induction_on with
  | _ n ih =>
    by_cases hn : n ≤ p
    · exact loop_le h hn
    · have e : n = p + (n - p) := by omega
      rw [e, loop_advance h]
      exact ih _ (by omega)
end generic

section
variable {K : Type} [Field K] [LinearOrder K] [IsStrictOrderedRing K]

/-- The search direction that `reduce3` leaves together with a simplex of three or four points. -/
def dirOf : List (SP (V3 K)) → V3 K
  | [x0, x1] => crossAba (x0.v - x1.v) (-x1.v)
  | [x0, x1, x2] => (x1.v - x2.v).cross (x0.v - x2.v)
  | _ => 0

/-- The simplices of two or three points of a list. -/
def simplices {α : Type} (G : List α) : List (List α) :=
  (G.flatMap fun x => G.map fun y => [x, y]) ++ (G.flatMap fun x => G.flatMap fun y => G.map fun z => [x, y, z])

theorem simplices_length {α : Type} (G : List α) : (simplices G).length = G.length ^ 2 + G.length ^ 3 := by
  simp [simplices, List.length_flatMap]; ring

theorem mem_simplices2 {α : Type} {G : List α} {x y : α} (hx : x ∈ G) (hy : y ∈ G) : [x, y] ∈ simplices G := by
  simp only [simplices, List.mem_append, List.mem_flatMap, List.mem_map]
  exact .inl ⟨x, hx, y, hy, rfl⟩
theorem mem_simplices3 {α : Type} {G : List α} {x y z : α} (hx : x ∈ G) (hy : y ∈ G) (hz : z ∈ G) : [x, y, z] ∈ simplices G := by
  simp only [simplices, List.mem_append, List.mem_flatMap, List.mem_map]
  exact .inr ⟨x, hx, y, hy, z, hz, rfl⟩

theorem checkSide_states {G : List (SP (V3 K))} {s0 s1 s2 : SP (V3 K)} (h0 : s0 ∈ G) (h1 : s1 ∈ G) (h2 : s2 ∈ G) (above ign : Bool) :
    (checkSide ((s1.v - s2.v).cross (s0.v - s2.v)) (s1.v - s2.v) (s0.v - s2.v) (-s2.v) s0 s1 s2 above ign).1 ∈ simplices G ∧
    (checkSide ((s1.v - s2.v).cross (s0.v - s2.v)) (s1.v - s2.v) (s0.v - s2.v) (-s2.v) s0 s1 s2 above ign).2 =
      dirOf (checkSide ((s1.v - s2.v).cross (s0.v - s2.v)) (s1.v - s2.v) (s0.v - s2.v) (-s2.v) s0 s1 s2 above ign).1 := by
  unfold checkSide
  dsimp only
  split
  · exact ⟨mem_simplices2 h1 h2, rfl⟩
  · split
    · exact ⟨mem_simplices2 h0 h2, rfl⟩
    · split
      · exact ⟨mem_simplices3 h0 h1 h2, rfl⟩
      · refine ⟨mem_simplices3 h1 h0 h2, ?_⟩
        simp only [dirOf, V3.cross]; ext <;> simp <;> ring

/-- After two iterations the search direction is a function of the simplex. -/
theorem reduce3_states {G : List (SP (V3 K))} {s : List (SP (V3 K))} (hs : s ∈ simplices G) {a : SP (V3 K)} (ha : a ∈ G) (d : V3 K)
    (hf : (reduce3 (s ++ [a]) d).1 = false) :
    (reduce3 (s ++ [a]) d).2.1 ∈ simplices G ∧ (reduce3 (s ++ [a]) d).2.2 = dirOf (reduce3 (s ++ [a]) d).2.1 := by
  simp only [simplices, List.mem_append, List.mem_flatMap, List.mem_map] at hs
  rcases hs with ⟨x, hx, y, hy, rfl⟩ | ⟨x, hx, y, hy, z, hz, rfl⟩
  · exact checkSide_states hx hy ha false false
  · show (reduce3 [x, y, z, a] d).2.1 ∈ _ ∧ (reduce3 [x, y, z, a] d).2.2 = dirOf (reduce3 [x, y, z, a] d).2.1
    change (reduce3 [x, y, z, a] d).1 = false at hf
    unfold reduce3 at hf ⊢
    dsimp only at hf ⊢
    split
    · exact checkSide_states hy hz ha true false
    · rename_i h1
      rw [if_neg h1] at hf
      split
      · exact checkSide_states hx hy ha true true
      · rename_i h2
        rw [if_neg h2] at hf
        split
        · exact ⟨mem_simplices3 hz hx ha, rfl⟩
        · rename_i h3
          rw [if_neg h3] at hf; cases hf

theorem advance_states {left right : V3 K → Res (V3 K)} {G : List (SP (V3 K))} (hG : ∀ d a, SP.fromMinkowski left right d = .ok a → a ∈ G)
    (k : Nat) {s s' : List (SP (V3 K))} {d d' : V3 K} (hs : s ∈ simplices G) (h : gjkAdvance reduce3 left right (k + 1) s d = some (s', d')) :
    s' ∈ simplices G ∧ d' = dirOf s' := by
  induction k generalizing s d with
  | zero =>
    unfold gjkAdvance at h
    cases ha : SP.fromMinkowski left right d with
    | panic => rw [ha] at h; cases h
    | timeout => rw [ha] at h; cases h
    | ok a =>
      rw [ha] at h
      dsimp only at h
      split at h
      · cases h
      · split at h
        · cases h
        · rename_i h2
          simp only [gjkAdvance, Option.some.injEq, Prod.mk.injEq] at h
          rw [← h.1, ← h.2]
          exact reduce3_states hs (hG d a ha) d (by simpa using h2)
  | succ k ih =>
    unfold gjkAdvance at h
    cases ha : SP.fromMinkowski left right d with
    | panic => rw [ha] at h; cases h
    | timeout => rw [ha] at h; cases h
    | ok a =>
      rw [ha] at h
      dsimp only at h
      split at h
      · cases h
      · split at h
        · cases h
        · rename_i h2
          exact ih (reduce3_states hs (hG d a ha) d (by simpa using h2)).1 h

/-- **C83, partial.** For support functions with at most `m` and `n` values (polytopes with `m` and `n` vertices), `(m n)³ + (m n)² + 2` iterations
are enough for GJK in 3D: it gives the same answer with every larger limit.  (Missing: that it then has decided. That is false, `c83_false`.) -/
theorem c83_bound_partial {left right : V3 K → Res (V3 K)} (F G : List (V3 K)) (hF : ∀ d p, left d = .ok p → p ∈ F) (hG : ∀ d p, right d = .ok p → p ∈ G)
    (leftPos rightPos : V3 K) (N : Nat) (hN : (F.length * G.length) ^ 3 + (F.length * G.length) ^ 2 + 2 ≤ N) :
    gjkRun reduce3 N left right leftPos rightPos =
      gjkRun reduce3 ((F.length * G.length) ^ 3 + (F.length * G.length) ^ 2 + 2) left right leftPos rightPos := by
  classical
  set H : List (SP (V3 K)) := F.flatMap fun l => G.map fun r => ⟨l - r, l, r⟩ with hH
  have hHl : H.length = F.length * G.length := by rw [hH]; simp [List.length_flatMap]
  have hsup : ∀ d a, SP.fromMinkowski left right d = .ok a → a ∈ H := by
    intro d a h
    unfold SP.fromMinkowski at h
    rw [Res.bind_eq_ok] at h
    obtain ⟨l, hl, h⟩ := h
    rw [Res.bind_eq_ok] at h
    obtain ⟨r, hr, h⟩ := h
    cases h
    rw [hH, List.mem_flatMap]
    exact ⟨l, hF _ _ hl, List.mem_map.2 ⟨r, hG _ _ hr, rfl⟩⟩
  set M := (F.length * G.length) ^ 3 + (F.length * G.length) ^ 2 with hM
  have hMl : (simplices H).length = M := by rw [simplices_length, hHl, hM]; omega
  unfold gjkRun
  dsimp only
  cases ha : SP.fromMinkowski left right (firstDirection leftPos rightPos) with
  | panic => rfl
  | timeout => rfl
  | ok a =>
    rw [Res.bind_ok, Res.bind_ok]
    split
    · rfl
    · set d := -firstDirection leftPos rightPos with hd
      obtain ⟨n, rfl⟩ : ∃ n, N = M + 2 + n := ⟨N - (M + 2), by omega⟩
      cases hadv : gjkAdvance reduce3 left right (M + 2) [a] d with
      | none => exact loop_decided hadv n
      | some S =>
        have hex : ∀ k, k ≤ M → ∃ s', s' ∈ simplices H ∧ gjkAdvance reduce3 left right (k + 2) [a] d = some (s', dirOf s') := by
          intro k hk
          obtain ⟨s', d', e⟩ := advance_le hadv (n := k + 2) (by omega)
          obtain ⟨s1, d1, e1⟩ := advance_le hadv (n := 1) (by omega)
          have e2 := advance_add e1 (k + 1)
          rw [show 1 + (k + 1) = k + 2 by omega, e] at e2
          have hs1 : s1 ∈ simplices H := by
            unfold gjkAdvance at e1
            cases hb : SP.fromMinkowski left right d with
            | panic => rw [hb] at e1; cases e1
            | timeout => rw [hb] at e1; cases e1
            | ok b =>
              rw [hb] at e1
              dsimp only at e1
              split at e1
              · cases e1
              · split at e1
                · cases e1
                · simp only [gjkAdvance, Option.some.injEq, Prod.mk.injEq] at e1
                  rw [← e1.1]
                  exact mem_simplices2 (hsup _ _ ha) (hsup _ _ hb)
          obtain ⟨h1, h2⟩ := advance_states hsup k hs1 e2.symm
          exact ⟨s', h1, by rw [e, h2]⟩
        choose! f hf1 hf2 using hex
        obtain ⟨i, hi, j, hj, hne, hij⟩ : ∃ i ∈ Finset.range (M + 1), ∃ j ∈ Finset.range (M + 1), i ≠ j ∧ f i = f j := by
          apply Finset.exists_ne_map_eq_of_card_lt_of_maps_to (t := (simplices H).toFinset)
          · rw [Finset.card_range]
            exact lt_of_le_of_lt (List.toFinset_card_le _) (by omega)
          · intro k hk
            simp only [Finset.coe_range, Set.mem_Iio] at hk
            simp only [List.coe_toFinset, Set.mem_ofPred_eq]
            exact hf1 k (by omega)
        simp only [Finset.mem_range] at hi hj
        have key : ∀ i j, i < j → j < M + 1 → f i = f j → ∀ m, gjkLoop reduce3 left right (i + 2 + m) [a] d = .ok .exhausted := by
          intro i j hlt hj hij m
          rw [loop_advance (hf2 i (by omega))]
          apply loop_cycle (p := j - i) (by omega)
          have := advance_add (hf2 i (by omega)) (j - i)
          rw [show i + 2 + (j - i) = j + 2 by omega, hf2 j (by omega), ← hij] at this
          exact this.symm
        have key' : ∃ i, i < M + 1 ∧ ∀ m, gjkLoop reduce3 left right (i + 2 + m) [a] d = .ok .exhausted := by
          rcases lt_or_gt_of_ne hne with h | h
          · exact ⟨i, hi, key i j h hj hij⟩
          · exact ⟨j, hj, key j i h hi hij.symm⟩
        obtain ⟨i, hi, hx⟩ := key'
        have e1 := hx (M - i + n)
        have e2 := hx (M - i)
        rw [show i + 2 + (M - i + n) = M + 2 + n by omega] at e1
        rw [show i + 2 + (M - i) = M + 2 by omega] at e2
        rw [e1, e2]
end

/-- C83 for two library primitives with vertices. -/
theorem c83_prim3_partial (s t : Prim3) (hs : s.Ok) (ht : t.Ok) (hsp : Polytope3 s) (htp : Polytope3 t) (nz nz' : V3 ℝ → Bool) (D E : Dec3 ℝ) (N : Nat)
    (hN : ((Prim3.verts s).length * (Prim3.verts t).length) ^ 3 + ((Prim3.verts s).length * (Prim3.verts t).length) ^ 2 + 2 ≤ N) :
    gjkIntersect reduce3 N (s.supportPoint nz D.tr) (t.supportPoint nz' E.tr) (D.tr.point 0) (E.tr.point 0) =
      gjkIntersect reduce3 (((Prim3.verts s).length * (Prim3.verts t).length) ^ 3 + ((Prim3.verts s).length * (Prim3.verts t).length) ^ 2 + 2)
        (s.supportPoint nz D.tr) (t.supportPoint nz' E.tr) (D.tr.point 0) (E.tr.point 0) := by
  have h := c83_bound_partial ((Prim3.verts s).map D.tr.point) ((Prim3.verts t).map E.tr.point) (prim3_finite s hs hsp nz D) (prim3_finite t ht htp nz' E)
    (D.tr.point 0) (E.tr.point 0) N (by simpa using hN)
  simp only [List.length_map] at h
  simp only [gjkIntersect, h]

/-- Two particles: four iterations are as good as any larger number. -/
example (nz : V3 ℝ → Bool) (D E : Dec3 ℝ) (N : Nat) (hN : 4 ≤ N) :
    gjkIntersect reduce3 N (Prim3.particle.supportPoint nz D.tr) (Prim3.particle.supportPoint nz E.tr) (D.tr.point 0) (E.tr.point 0) =
      gjkIntersect reduce3 4 (Prim3.particle.supportPoint nz D.tr) (Prim3.particle.supportPoint nz E.tr) (D.tr.point 0) (E.tr.point 0) :=
  c83_prim3_partial .particle .particle trivial trivial trivial trivial nz nz D E N hN

/-! ## Two boxes -/

/-- A box of 38 × 2 × 24 around the origin. -/
def cycleA : Dec3 ℚ := ⟨1, ⟨⟨1, 0, 0⟩, ⟨0, 1, 0⟩, ⟨0, 0, 1⟩⟩, ⟨0, 0, 0⟩⟩
/-- The placement of a box of 6 × 30 × 20. -/
def cycleB : Dec3 ℚ := ⟨1, ⟨⟨1 / 9, -8 / 9, -4 / 9⟩, ⟨-8 / 9, 1 / 9, -4 / 9⟩, ⟨4 / 9, 4 / 9, -7 / 9⟩⟩, ⟨106 / 9, 32 / 9, -240 / 9⟩⟩

/-- **C83 is false.** Two boxes, both with a placement that only turns and moves, that have a ball of radius 1/10 in common: GJK in 3D never decides, with
any limit on its iterations, and so reports that they do not collide. -/
theorem c83_false : cycleA.rot.Orthogonal ∧ cycleB.rot.Orthogonal ∧ cycleA.scale = 1 ∧ cycleB.scale = 1 ∧
    (∃ c : V3 ℚ, ∀ p, (p - c).dot (p - c) ≤ 1 / 100 → Image cycleA.tr (InBox 38 2 24) p ∧ Image cycleB.tr (InBox 6 30 20) p) ∧
    ∀ maxIterations, gjkRun reduce3 maxIterations ((Cuboid.new 38 2 24).supportPoint cycleA.tr) ((Cuboid.new 6 30 20).supportPoint cycleB.tr)
        (cycleA.tr.point 0) (cycleB.tr.point 0) = .ok .exhausted ∧
      gjkIntersect reduce3 maxIterations ((Cuboid.new 38 2 24).supportPoint cycleA.tr) ((Cuboid.new 6 30 20).supportPoint cycleB.tr)
        (cycleA.tr.point 0) (cycleB.tr.point 0) = .ok none := by
  have run : ∀ N, gjkRun reduce3 N ((Cuboid.new 38 2 24).supportPoint cycleA.tr) ((Cuboid.new 6 30 20).supportPoint cycleB.tr)
      (cycleA.tr.point 0) (cycleB.tr.point 0) = .ok .exhausted := by
    intro N
    obtain ⟨L, hL⟩ : ∃ L, L = (Cuboid.new 38 2 24).supportPoint cycleA.tr := ⟨_, rfl⟩
    obtain ⟨R, hR⟩ : ∃ R, R = (Cuboid.new 6 30 20).supportPoint cycleB.tr := ⟨_, rfl⟩
    have hstart : (match SP.fromMinkowski ((Cuboid.new 38 2 24).supportPoint cycleA.tr) ((Cuboid.new 6 30 20).supportPoint cycleB.tr)
          (firstDirection (cycleA.tr.point 0) (cycleB.tr.point 0)) with
        | .ok a => !decide (Inner.dot a.v (firstDirection (cycleA.tr.point 0) (cycleB.tr.point 0)) ≤ 0) &&
          (match gjkAdvance reduce3 ((Cuboid.new 38 2 24).supportPoint cycleA.tr) ((Cuboid.new 6 30 20).supportPoint cycleB.tr) 4 [a]
              (-firstDirection (cycleA.tr.point 0) (cycleB.tr.point 0)) with
            | some S => decide (gjkAdvance reduce3 ((Cuboid.new 38 2 24).supportPoint cycleA.tr) ((Cuboid.new 6 30 20).supportPoint cycleB.tr) 5 S.1 S.2 = some S)
            | none => false)
        | _ => false) = true := by decide +kernel
    rw [← hL, ← hR] at hstart ⊢
    unfold gjkRun
    dsimp only
    cases ha : SP.fromMinkowski L R (firstDirection (cycleA.tr.point 0) (cycleB.tr.point 0)) with
    | panic => rw [ha] at hstart; cases hstart
    | timeout => rw [ha] at hstart; cases hstart
    | ok a =>
      rw [ha] at hstart
      dsimp only at hstart
      rw [Res.bind_ok]
      rw [Bool.and_eq_true] at hstart
      obtain ⟨h1, h2⟩ := hstart
      rw [if_neg (by simpa using h1)]
      cases hS : gjkAdvance reduce3 L R 4 [a] (-firstDirection (cycleA.tr.point 0) (cycleB.tr.point 0)) with
      | none => rw [hS] at h2; cases h2
      | some S =>
        rw [hS] at h2
        simp only [decide_eq_true_eq] at h2
        by_cases hN : N ≤ 4
        · exact loop_le hS hN
        · obtain ⟨n, rfl⟩ : ∃ n, N = 4 + n := ⟨N - 4, by omega⟩
          rw [loop_advance hS]
          exact loop_cycle (by norm_num) h2 n
  refine ⟨?_, ?_, rfl, rfl, ⟨⟨377 / 20, 6 / 25, -237 / 20⟩, ?_⟩, fun N => ⟨run N, ?_⟩⟩
  · refine ⟨by decide +kernel, fun v => ?_⟩
    ext <;> simp [cycleA, M3.apply, M3.transpose]
  · refine ⟨by decide +kernel, fun v => ?_⟩
    ext <;> simp [cycleB, M3.apply, M3.transpose] <;> ring
  · intro p hp
    simp only [V3.dot, V3.sub_x, V3.sub_y, V3.sub_z] at hp
    have form : ∀ a b c : ℚ, a * a + b * b + c * c = 81 →
        -(9 / 10) ≤ a * (p.x - 377 / 20) + b * (p.y - 6 / 25) + c * (p.z - -237 / 20) ∧ a * (p.x - 377 / 20) + b * (p.y - 6 / 25) + c * (p.z - -237 / 20) ≤ 9 / 10 := by
      intro a b c habc
      apply abs_le.1
      apply abs_le_of_sq_le_sq _ (by norm_num)
      nlinarith [mul_self_nonneg (a * (p.y - 6 / 25) - b * (p.x - 377 / 20)), mul_self_nonneg (a * (p.z - -237 / 20) - c * (p.x - 377 / 20)),
        mul_self_nonneg (b * (p.z - -237 / 20) - c * (p.y - 6 / 25))]
    constructor
    · have h1 := form 9 0 0 (by norm_num)
      have h2 := form 0 9 0 (by norm_num)
      have h3 := form 0 0 9 (by norm_num)
      refine ⟨p, ⟨⟨?_, ?_⟩, ⟨?_, ?_⟩, ?_, ?_⟩, ?_⟩
      all_goals first | linarith | (ext <;> simp [cycleA, Dec3.tr, M3.apply])
    · have h1 := form 1 (-8) (-4) (by norm_num)
      have h2 := form (-8) 1 (-4) (by norm_num)
      have h3 := form 4 4 (-7) (by norm_num)
      refine ⟨cycleB.rot.transpose.apply (p - cycleB.disp), ⟨⟨?_, ?_⟩, ⟨?_, ?_⟩, ?_, ?_⟩, ?_⟩
      all_goals first
        | (simp only [cycleB, M3.apply, M3.transpose, V3.add_x, V3.add_y, V3.add_z, V3.mul_x, V3.mul_y, V3.mul_z, V3.sub_x, V3.sub_y, V3.sub_z]; linarith)
        | (ext <;> simp [cycleB, Dec3.tr, M3.apply, M3.transpose] <;> ring)
  · simp only [gjkIntersect, run N]; rfl
end Verif.Minkowski
