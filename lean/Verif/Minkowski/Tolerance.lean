import Verif.Minkowski.Gjk3
import Verif.Minkowski.Epa2Shapes
import Verif.Minkowski.Epa3Shapes
import Verif.Primitive.PolyhedronExample
/-!
# The tolerance of `ulps_eq!` and the size of the shapes (C104)

`ulps_eq!(v, zero)` is true when every component of `v` is at most the machine epsilon of the scalar in absolute value (`approx` tests the absolute difference first). The other files take it for
equality with zero. Here it is modelled as it is, with an arbitrary `eps`. The vectors that are compared are of the third degree in the lengths of the scene, so for small shapes the test holds of
vectors that are not zero: in 2D GJK then reports a collision of shapes that are apart, in 3D it reports none of shapes that overlap.
-/
namespace Verif.Minkowski
open Verif Geom Primitive
set_option linter.unusedSectionVars false

section model
variable {K : Type} [Field K] [LinearOrder K] [IsStrictOrderedRing K]

/-- `ulps_eq!(v, Vector2::zero())` -/
def Near2 (eps : K) (v : V2 K) : Prop := |v.x| ≤ eps ∧ |v.y| ≤ eps
/-- `ulps_eq!(v, Vector3::zero())` -/
def Near3 (eps : K) (v : V3 K) : Prop := |v.x| ≤ eps ∧ |v.y| ≤ eps ∧ |v.z| ≤ eps
instance (eps : K) (v : V2 K) : Decidable (Near2 eps v) := by unfold Near2; infer_instance
instance (eps : K) (v : V3 K) : Decidable (Near3 eps v) := by unfold Near3; infer_instance

/-- `SimplexProcessor2::reduce_to_closest_feature` with the tolerance of `ulps_eq!` (line 61), `src/algorithm/minkowski/gjk/simplex/simplex2d.rs:23-67` -/
def reduce2T (eps : K) (simplex : List (SP (V2 K))) (d : V2 K) : Bool × List (SP (V2 K)) × V2 K :=
  match simplex with
  | [s0, s1] =>
    let a := s1.v
    let b := s0.v
    let ao := -a
    let ab := b - a
    let d := tripleProduct ab ao ab
    let d : V2 K := if Near2 eps d then ⟨-ab.y, ab.x⟩ else d
    (false, [s0, s1], d)
  | _ => reduce2 simplex d

/-- `SimplexProcessor3::reduce_to_closest_feature` with the tolerance of `ulps_eq!` (line 92), `src/algorithm/minkowski/gjk/simplex/simplex3d.rs:24-98` -/
def reduce3T (eps : K) (simplex : List (SP (V3 K))) (v : V3 K) : Bool × List (SP (V3 K)) × V3 K :=
  match simplex with
  | [s0, s1] =>
    let a := s1.v
    let b := s0.v
    let ao := -a
    let ab := b - a
    let v := crossAba ab ao
    let v : V3 K := if Near3 eps v then ⟨1 / 10, v.y, v.z⟩ else v
    (false, [s0, s1], v)
  | _ => reduce3 simplex v

/-- The first direction with the tolerance of `ulps_eq!` (line 120), `src/algorithm/minkowski/gjk/mod.rs:117-122` -/
def firstDirection2T (eps : K) (leftPos rightPos : V2 K) : V2 K :=
  let d := rightPos - leftPos
  if Near2 eps d then ⟨1, 1⟩ else d
/-- The first direction with the tolerance of `ulps_eq!` (line 120), `src/algorithm/minkowski/gjk/mod.rs:117-122` -/
def firstDirection3T (eps : K) (leftPos rightPos : V3 K) : V3 K :=
  let d := rightPos - leftPos
  if Near3 eps d then ⟨1, 1, 1⟩ else d

/-- `GJK2::intersect` with the tolerance of `ulps_eq!`, `src/algorithm/minkowski/gjk/mod.rs:101-146` -/
def gjkRun2T (eps : K) (maxIterations : Nat) (left right : V2 K → Res (V2 K)) (leftPos rightPos : V2 K) : Res (Out (V2 K)) := do
  let d := firstDirection2T eps leftPos rightPos
  let a ← SP.fromMinkowski left right d
  if Inner.dot a.v d ≤ 0 then return .miss
  else gjkLoop (reduce2T eps) left right maxIterations [a] (-d)
/-- `GJK3::intersect` with the tolerance of `ulps_eq!`, `src/algorithm/minkowski/gjk/mod.rs:101-146` -/
def gjkRun3T (eps : K) (maxIterations : Nat) (left right : V3 K → Res (V3 K)) (leftPos rightPos : V3 K) : Res (Out (V3 K)) := do
  let d := firstDirection3T eps leftPos rightPos
  let a ← SP.fromMinkowski left right d
  if Inner.dot a.v d ≤ 0 then return .miss
  else gjkLoop (reduce3T eps) left right maxIterations [a] (-d)

/-- the `Option` that `GJK2::intersect` returns -/
def gjkIntersect2T (eps : K) (maxIterations : Nat) (left right : V2 K → Res (V2 K)) (leftPos rightPos : V2 K) : Res (Option (List (SP (V2 K)))) := do
  let o ← gjkRun2T eps maxIterations left right leftPos rightPos
  return o.toOption
/-- the `Option` that `GJK3::intersect` returns -/
def gjkIntersect3T (eps : K) (maxIterations : Nat) (left right : V3 K → Res (V3 K)) (leftPos rightPos : V3 K) : Res (Option (List (SP (V3 K)))) := do
  let o ← gjkRun3T eps maxIterations left right leftPos rightPos
  return o.toOption

/-! ## Tolerance zero is the model of the other files -/

theorem near2_zero (v : V2 K) : Near2 0 v ↔ v = 0 := by
  unfold Near2
  rw [abs_nonpos_iff, abs_nonpos_iff, V2.ext_iff]
  rfl
theorem near3_zero (v : V3 K) : Near3 0 v ↔ v = 0 := by
  unfold Near3
  rw [abs_nonpos_iff, abs_nonpos_iff, abs_nonpos_iff, V3.ext_iff]
  rfl

theorem reduce2T_congr (eps : K) {s : List (SP (V2 K))} (h : ∀ p ∈ s, ∀ q ∈ s, Near2 eps (tripleProduct (p.v - q.v) (-q.v) (p.v - q.v)) → tripleProduct (p.v - q.v) (-q.v) (p.v - q.v) = 0)
    (he : 0 ≤ eps) (d : V2 K) : reduce2T eps s d = reduce2 s d := by
  match s with
  | [] => rfl
  | [_] => rfl
  | [s0, s1] =>
    have : Near2 eps (tripleProduct (s0.v - s1.v) (-s1.v) (s0.v - s1.v)) ↔ tripleProduct (s0.v - s1.v) (-s1.v) (s0.v - s1.v) = 0 := by
      refine ⟨h s0 (by simp) s1 (by simp), fun e => ?_⟩
      rw [e]
      constructor <;> simpa using he
    unfold reduce2T reduce2
    dsimp only
    simp only [this]
  | [_, _, _] => rfl
  | _ :: _ :: _ :: _ :: _ => rfl

theorem reduce3T_congr (eps : K) {s : List (SP (V3 K))} (h : ∀ p ∈ s, ∀ q ∈ s, Near3 eps (crossAba (p.v - q.v) (-q.v)) → crossAba (p.v - q.v) (-q.v) = 0)
    (he : 0 ≤ eps) (d : V3 K) : reduce3T eps s d = reduce3 s d := by
  match s with
  | [] => rfl
  | [_] => rfl
  | [s0, s1] =>
    have : Near3 eps (crossAba (s0.v - s1.v) (-s1.v)) ↔ crossAba (s0.v - s1.v) (-s1.v) = 0 := by
      refine ⟨h s0 (by simp) s1 (by simp), fun e => ?_⟩
      rw [e]
      refine ⟨?_, ?_, ?_⟩ <;> simpa using he
    unfold reduce3T reduce3
    dsimp only
    simp only [this]
  | [_, _, _] => rfl
  | [_, _, _, _] => rfl
  | _ :: _ :: _ :: _ :: _ :: _ => rfl

/-- With tolerance zero GJK in 2D is the model of the other files. -/
theorem c104_zero_2d (n : Nat) (left right : V2 K → Res (V2 K)) (lp rp : V2 K) : gjkRun2T 0 n left right lp rp = gjkRun reduce2 n left right lp rp := by
  have h1 : reduce2T (0 : K) = reduce2 := by
    funext s d
    exact reduce2T_congr 0 (fun p _ q _ h => (near2_zero _).1 h) le_rfl d
  have h2 : firstDirection2T 0 lp rp = firstDirection lp rp := by
    unfold firstDirection2T firstDirection
    dsimp only
    simp only [near2_zero]
    rfl
  unfold gjkRun2T gjkRun
  rw [h1, h2]
/-- With tolerance zero GJK in 3D is the model of the other files. -/
theorem c104_zero_3d (n : Nat) (left right : V3 K → Res (V3 K)) (lp rp : V3 K) : gjkRun3T 0 n left right lp rp = gjkRun reduce3 n left right lp rp := by
  have h1 : reduce3T (0 : K) = reduce3 := by
    funext s d
    exact reduce3T_congr 0 (fun p _ q _ h => (near3_zero _).1 h) le_rfl d
  have h2 : firstDirection3T 0 lp rp = firstDirection lp rp := by
    unfold firstDirection3T firstDirection
    dsimp only
    simp only [near3_zero]
    rfl
  unfold gjkRun3T gjkRun
  rw [h1, h2]

/-! ## What holds with every tolerance -/

theorem firstDirection2T_ne {eps : K} (he : 0 ≤ eps) (lp rp : V2 K) : firstDirection2T eps lp rp ≠ 0 := by
  unfold firstDirection2T
  dsimp only
  split
  · intro h; exact one_ne_zero (congrArg V2.x h)
  · rename_i h
    intro h0
    rw [h0] at h
    exact h ⟨by simpa using he, by simpa using he⟩
theorem firstDirection3T_ne {eps : K} (he : 0 ≤ eps) (lp rp : V3 K) : firstDirection3T eps lp rp ≠ 0 := by
  unfold firstDirection3T
  dsimp only
  split
  · intro h; exact one_ne_zero (congrArg V3.x h)
  · rename_i h
    intro h0
    rw [h0] at h
    exact h ⟨by simpa using he, by simpa using he, by simpa using he⟩

/-- The states of the loop in 2D, as far as the answer "no collision" needs them. -/
inductive InvT : List (SP (V2 K)) → V2 K → Prop
  | one {s0 d} : d ≠ 0 → s0.v.dot d < 0 → InvT [s0] d
  | two {s0 s1 d} : d ≠ 0 → InvT [s0, s1] d

theorem InvT.d_ne {s : List (SP (V2 K))} {d : V2 K} (h : InvT s d) : d ≠ 0 := by
  cases h <;> assumption

theorem ne_of_pos2 {a d : V2 K} (h : 0 < d.dot a) : d ≠ 0 := by
  rintro rfl
  simp [V2.dot] at h

theorem reduce2T_inv {eps : K} (he : 0 ≤ eps) {s : List (SP (V2 K))} {d : V2 K} (h : InvT s d) {a : SP (V2 K)} (ha : 0 < a.v.dot d) (hf : (reduce2T eps (s ++ [a]) d).1 = false) :
    InvT (reduce2T eps (s ++ [a]) d).2.1 (reduce2T eps (s ++ [a]) d).2.2 := by
  cases h with
  | @one s0 _ hd h0 =>
    have hne : s0.v - a.v ≠ 0 := by
      intro e
      have hx := congrArg V2.x e
      have hy := congrArg V2.y e
      simp only [V2.sub_x, V2.sub_y, V2.zero_x, V2.zero_y] at hx hy
      have : s0.v.dot d - a.v.dot d = 0 := by
        simp only [V2.dot]
        linear_combination d.x * hx + d.y * hy
      linarith
    show InvT [s0, a] (if Near2 eps (tripleProduct (s0.v - a.v) (-a.v) (s0.v - a.v)) then (⟨-(s0.v - a.v).y, (s0.v - a.v).x⟩ : V2 K) else tripleProduct (s0.v - a.v) (-a.v) (s0.v - a.v))
    refine .two ?_
    split
    · intro e
      apply hne
      have hx := congrArg V2.x e
      have hy := congrArg V2.y e
      simp only [V2.zero_x, V2.zero_y] at hx hy
      ext
      · exact hy
      · exact neg_eq_zero.1 hx
    · rename_i h1
      intro e
      rw [e] at h1
      exact h1 ⟨by simpa using he, by simpa using he⟩
  | @two s0 s1 _ hd =>
    change (reduce2 [s0, s1, a] d).1 = false at hf
    show InvT (reduce2 [s0, s1, a] d).2.1 (reduce2 [s0, s1, a] d).2.2
    unfold reduce2 at hf ⊢
    dsimp only at hf ⊢
    split at hf
    · rename_i h1
      rw [if_pos h1]
      exact .two (ne_of_pos2 h1)
    · rename_i h1
      rw [if_neg h1]
      split at hf
      · rename_i h2
        rw [if_pos h2]
        exact .two (ne_of_pos2 h2)
      · cases hf

/-- **C104, the answer "no collision" in 2D, with every tolerance**: for convex shapes with correct support functions GJK returns, and when it says "no collision" before its iterations are used up a line
separates the shapes. -/
theorem c104_miss_2d {L R : V2 K → Prop} {left right : V2 K → Res (V2 K)} (hl : SupportFn2 left L) (hr : SupportFn2 right R) {eps : K} (he : 0 ≤ eps) (n : Nat) (lp rp : V2 K) :
    ∃ o, gjkRun2T eps n left right lp rp = .ok o ∧ (o = .miss → Separated2 L R) := by
  have hd := firstDirection2T_ne he lp rp
  obtain ⟨a, ha, hf, hs⟩ := minkowski2 hl hr hd
  unfold gjkRun2T
  dsimp only
  rw [ha, Res.bind_ok]
  by_cases h : a.v.dot (firstDirection2T eps lp rp) ≤ 0
  · exact ⟨.miss, by simp [Inner.dot, h], fun _ => separated_of hd hs h⟩
  · obtain ⟨o, h1, h2, -⟩ := gjkLoop_spec (reduce := reduce2T eps) (left := left) (right := right) InvT (Separated2 L R) (fun _ => True) (by
      intro s d hi
      obtain ⟨b, hb, -, hbs⟩ := minkowski2 hl hr hi.d_ne
      exact ⟨b, hb, separated_of hi.d_ne hbs, fun hp => ⟨fun _ => trivial, reduce2T_inv he hi hp⟩⟩) n [a] (-firstDirection2T eps lp rp)
      (.one (neg_ne2 hd) (by rw [dot_neg2]; linarith))
    refine ⟨o, ?_, h2⟩
    rw [← h1]
    simp [Inner.dot, h]

/-- **C104, a reported collision in 3D, with every tolerance**: when both support functions always answer with a point of their shape GJK returns, and a returned simplex is a tetrahedron of differences of
points of the shapes around the origin; convex shapes then share a point. -/
theorem c104_hit_3d {L R : V3 K → Prop} (hL : Convex3 L) (hR : Convex3 R) {left right : V3 K → Res (V3 K)} (hl : PointsOf3 left L) (hr : PointsOf3 right R) (eps : K) (n : Nat) (lp rp : V3 K) :
    ∃ o, gjkIntersect3T eps n left right lp rp = .ok o ∧
      ∀ s, o = some s → (∃ x, L x ∧ R x) ∧ ∃ s0 s1 s2 s3, s = [s0, s1, s2, s3] ∧ (∀ p ∈ s, FromShapes3 L R p) ∧ InTetrahedron s0.v s1.v s2.v s3.v := by
  have main : ∃ o, gjkRun3T eps n left right lp rp = .ok o ∧ ∀ s, o = .hit s → GoodHit3 L R s := by
    obtain ⟨p, hp, hpL⟩ := hl (firstDirection3T eps lp rp)
    obtain ⟨q, hq, hqR⟩ := hr (-firstDirection3T eps lp rp)
    by_cases h : (p - q).dot (firstDirection3T eps lp rp) ≤ 0
    · exact ⟨.miss, by simp [gjkRun3T, SP.fromMinkowski, hp, hq, Inner.dot, h], nofun⟩
    · have e : gjkRun3T eps n left right lp rp = gjkLoop (reduce3T eps) left right n [⟨p - q, p, q⟩] (-firstDirection3T eps lp rp) := by
        simp [gjkRun3T, SP.fromMinkowski, hp, hq, Inner.dot, h]
      rw [e]
      obtain ⟨o, h1, -, h3⟩ := gjkLoop_spec (reduce := reduce3T eps) (left := left) (right := right) (InvA L R) True (GoodHit3 L R) (by
        intro s d hi
        obtain ⟨a, ha, -, h2⟩ := gjk3_stepA s d (hl d) (hr (-d)) hi
        refine ⟨a, ha, fun _ => trivial, fun hp => ?_⟩
        cases hi with
        | @one s0 _ h0 =>
          refine ⟨nofun, fun _ => ?_⟩
          obtain ⟨-, h4⟩ := h2 hp
          have h5 : InvA L R [s0, a] _ := h4 rfl
          cases h5 with
          | two f0 f1 => exact .two f0 f1
        | two _ _ => exact h2 hp
        | three _ _ _ _ => exact h2 hp) n [⟨p - q, p, q⟩] (-firstDirection3T eps lp rp) (.one ⟨hpL, hqR, rfl⟩)
      exact ⟨o, h1, h3⟩
  obtain ⟨o, h1, h3⟩ := main
  refine ⟨o.toOption, by simp [gjkIntersect3T, h1], ?_⟩
  intro s hs
  cases o with
  | hit t =>
    obtain ⟨s0, s1, s2, s3, rfl, ⟨f0, f1, f2, f3⟩, ht, -⟩ := h3 t rfl
    simp only [Out.toOption, Option.some.injEq] at hs
    subst hs
    refine ⟨meet_of_tetrahedron hL hR f0 f1 f2 f3 ht, s0, s1, s2, s3, rfl, ?_, ht⟩
    simp [f0, f1, f2, f3]
  | miss => simp [Out.toOption] at hs
  | exhausted => simp [Out.toOption] at hs

/-! ## Scenes on a grid -/

/-- Both coordinates are whole multiples of `g`. -/
def OnGrid2 (g : K) (v : V2 K) : Prop := ∃ i j : ℤ, v = ⟨g * i, g * j⟩
/-- All coordinates are whole multiples of `g`. -/
def OnGrid3 (g : K) (v : V3 K) : Prop := ∃ i j k : ℤ, v = ⟨g * i, g * j, g * k⟩

theorem small_multiple {g eps : K} (hg : 0 < g) (he : eps < g) {m : ℤ} (h : |g * m| ≤ eps) : g * (m : K) = 0 := by
  by_contra hne
  have hm : m ≠ 0 := by rintro rfl; simp at hne
  have h1 : (1 : K) ≤ |(m : K)| := by
    rw [← Int.cast_abs]
    exact_mod_cast Int.one_le_abs hm
  rw [abs_mul, abs_of_pos hg] at h
  have : g * 1 ≤ g * |(m : K)| := mul_le_mul_of_nonneg_left h1 hg.le
  linarith

theorem gjkLoop_congr {V : Type} [Neg V] [Sub V] [Zero V] [DecidableEq V] [Inner V K] {r1 r2 : List (SP V) → V → Bool × List (SP V) × V} {left right : V → Res V} (P : SP V → Prop)
    (hP : ∀ d a, SP.fromMinkowski left right d = .ok a → P a) (hr : ∀ s d, (∀ p ∈ s, P p) → r1 s d = r2 s d) (hm : ∀ s d, ∀ p ∈ (r2 s d).2.1, p ∈ s) :
    ∀ n s d, (∀ p ∈ s, P p) → gjkLoop r1 left right n s d = gjkLoop r2 left right n s d
  | 0, _, _, _ => rfl
  | n + 1, s, d, hs => by
    unfold gjkLoop
    cases ha : SP.fromMinkowski left right d with
    | ok a =>
      rw [Res.bind_ok, Res.bind_ok]
      have hs' : ∀ p ∈ s ++ [a], P p := by
        intro p hp
        rcases List.mem_append.1 hp with h | h
        · exact hs p h
        · rw [List.mem_singleton.1 h]; exact hP d a ha
      dsimp only
      rw [hr _ d hs', gjkLoop_congr P hP hr hm n _ _ fun p hp => hs' p (hm _ _ p hp)]
    | panic => rfl
    | timeout => rfl

theorem reduce2_keeps (s : List (SP (V2 K))) (d : V2 K) : ∀ p ∈ (reduce2 s d).2.1, p ∈ s := by
  intro p hp
  match s with
  | [] => exact hp
  | [_] => exact hp
  | [s0, s1] => exact hp
  | [s0, s1, s2] =>
    unfold reduce2 at hp
    dsimp only at hp
    split at hp
    · simp only [List.mem_cons, List.not_mem_nil, or_false] at hp ⊢; tauto
    · split at hp
      · simp only [List.mem_cons, List.not_mem_nil, or_false] at hp ⊢; tauto
      · exact hp
  | _ :: _ :: _ :: _ :: _ => exact hp

theorem fromMinkowski_parts {V : Type} [Neg V] [Sub V] {left right : V → Res V} {d : V} {a : SP V} (h : SP.fromMinkowski left right d = .ok a) :
    ∃ p q, left d = .ok p ∧ right (-d) = .ok q ∧ a.v = p - q := by
  unfold SP.fromMinkowski at h
  obtain ⟨p, hp, h⟩ := Res.bind_eq_ok.1 h
  obtain ⟨q, hq, h⟩ := Res.bind_eq_ok.1 h
  cases h
  exact ⟨p, q, hp, hq, rfl⟩

/-- **C104, the part that holds in 2D**: when all support points and both positions have coordinates on a grid whose spacing, and its third power, are greater than the machine epsilon, the tolerance has no
effect: the answer is the exact one, to which C52, C53, C65 and C96 apply. Missing: smaller scenes and scenes off every such grid (`c104_false_2d`). -/
theorem c104_grid_2d_partial {left right : V2 K → Res (V2 K)} {g eps : K} (hg : 0 < g) (he : 0 ≤ eps) (h1 : eps < g) (h3 : eps < g * g * g)
    (hl : ∀ d p, left d = .ok p → OnGrid2 g p) (hr : ∀ d p, right d = .ok p → OnGrid2 g p) {lp rp : V2 K} (hlp : OnGrid2 g lp) (hrp : OnGrid2 g rp) (n : Nat) :
    gjkRun2T eps n left right lp rp = gjkRun reduce2 n left right lp rp := by
  have hP : ∀ d (a : SP (V2 K)), SP.fromMinkowski left right d = .ok a → OnGrid2 g a.v := by
    intro d a ha
    obtain ⟨p, q, hp, hq, e⟩ := fromMinkowski_parts ha
    obtain ⟨i, j, rfl⟩ := hl _ _ hp
    obtain ⟨k, l, rfl⟩ := hr _ _ hq
    refine ⟨i - k, j - l, ?_⟩
    rw [e]
    ext <;> simp <;> ring
  have hd : firstDirection2T eps lp rp = firstDirection lp rp := by
    obtain ⟨i, j, rfl⟩ := hlp
    obtain ⟨k, l, rfl⟩ := hrp
    have : Near2 eps ((⟨g * k, g * l⟩ : V2 K) - ⟨g * i, g * j⟩) ↔ (⟨g * k, g * l⟩ : V2 K) - ⟨g * i, g * j⟩ = 0 := by
      constructor
      · rintro ⟨a, b⟩
        have e1 := small_multiple hg h1 (m := k - i) (by convert a using 2; simp; ring)
        have e2 := small_multiple hg h1 (m := l - j) (by convert b using 2; simp; ring)
        push_cast at e1 e2
        ext
        · simp; linear_combination e1
        · simp; linear_combination e2
      · intro e
        rw [e]
        exact ⟨by simpa using he, by simpa using he⟩
    unfold firstDirection2T firstDirection
    dsimp only
    simp only [this]
    rfl
  have hr2 : ∀ (s : List (SP (V2 K))) (d : V2 K), (∀ p ∈ s, OnGrid2 g p.v) → reduce2T eps s d = reduce2 s d := by
    intro s d hs
    refine reduce2T_congr eps ?_ he d
    intro p hp q hq hn
    obtain ⟨i, j, ep⟩ := hs p hp
    obtain ⟨k, l, eq⟩ := hs q hq
    rw [ep, eq] at hn ⊢
    have hg3 : 0 < g * g * g := by positivity
    obtain ⟨a, b⟩ := hn
    have e1 := small_multiple hg3 h3 (m := -k * ((i - k) * (i - k) + (j - l) * (j - l)) + (i - k) * (k * (i - k) + l * (j - l))) (by
      convert a using 2; simp only [tripleProduct, V2.sub_x, V2.sub_y, V2.neg_x, V2.neg_y]; push_cast; ring)
    have e2 := small_multiple hg3 h3 (m := -l * ((i - k) * (i - k) + (j - l) * (j - l)) + (j - l) * (k * (i - k) + l * (j - l))) (by
      convert b using 2; simp only [tripleProduct, V2.sub_x, V2.sub_y, V2.neg_x, V2.neg_y]; push_cast; ring)
    push_cast at e1 e2
    ext
    · simp only [tripleProduct, V2.sub_x, V2.sub_y, V2.neg_x, V2.neg_y, V2.zero_x]; linear_combination e1
    · simp only [tripleProduct, V2.sub_x, V2.sub_y, V2.neg_x, V2.neg_y, V2.zero_y]; linear_combination e2
  unfold gjkRun2T gjkRun
  rw [hd]
  dsimp only
  cases ha : SP.fromMinkowski left right (firstDirection lp rp) with
  | ok a =>
    rw [Res.bind_ok, Res.bind_ok]
    rw [gjkLoop_congr (fun p => OnGrid2 g p.v) hP hr2 reduce2_keeps n _ _ (by simpa using hP _ _ ha)]
  | panic => rfl
  | timeout => rfl

/-- **C104, the part that holds in 3D**, as `c104_grid_2d_partial`. Missing: smaller scenes and scenes off every such grid (`c104_false_3d`). -/
theorem c104_grid_3d_partial {left right : V3 K → Res (V3 K)} {g eps : K} (hg : 0 < g) (he : 0 ≤ eps) (h1 : eps < g) (h3 : eps < g * g * g)
    (hl : ∀ d p, left d = .ok p → OnGrid3 g p) (hr : ∀ d p, right d = .ok p → OnGrid3 g p) {lp rp : V3 K} (hlp : OnGrid3 g lp) (hrp : OnGrid3 g rp) (n : Nat) :
    gjkRun3T eps n left right lp rp = gjkRun reduce3 n left right lp rp := by
  have hP : ∀ d (a : SP (V3 K)), SP.fromMinkowski left right d = .ok a → OnGrid3 g a.v := by
    intro d a ha
    obtain ⟨p, q, hp, hq, e⟩ := fromMinkowski_parts ha
    obtain ⟨i, j, m, rfl⟩ := hl _ _ hp
    obtain ⟨k, l, o, rfl⟩ := hr _ _ hq
    refine ⟨i - k, j - l, m - o, ?_⟩
    rw [e]
    ext <;> simp <;> ring
  have hd : firstDirection3T eps lp rp = firstDirection lp rp := by
    obtain ⟨i, j, m, rfl⟩ := hlp
    obtain ⟨k, l, o, rfl⟩ := hrp
    have : Near3 eps ((⟨g * k, g * l, g * o⟩ : V3 K) - ⟨g * i, g * j, g * m⟩) ↔ (⟨g * k, g * l, g * o⟩ : V3 K) - ⟨g * i, g * j, g * m⟩ = 0 := by
      constructor
      · rintro ⟨a, b, c⟩
        have e1 := small_multiple hg h1 (m := k - i) (by convert a using 2; simp; ring)
        have e2 := small_multiple hg h1 (m := l - j) (by convert b using 2; simp; ring)
        have e3 := small_multiple hg h1 (m := o - m) (by convert c using 2; simp; ring)
        push_cast at e1 e2 e3
        ext
        · simp; linear_combination e1
        · simp; linear_combination e2
        · simp; linear_combination e3
      · intro e
        rw [e]
        exact ⟨by simpa using he, by simpa using he, by simpa using he⟩
    unfold firstDirection3T firstDirection
    dsimp only
    simp only [this]
    rfl
  have hr2 : ∀ (s : List (SP (V3 K))) (d : V3 K), (∀ p ∈ s, OnGrid3 g p.v) → reduce3T eps s d = reduce3 s d := by
    intro s d hs
    refine reduce3T_congr eps ?_ he d
    intro p hp q hq hn
    obtain ⟨i, j, m, ep⟩ := hs p hp
    obtain ⟨k, l, o, eq⟩ := hs q hq
    rw [ep, eq] at hn ⊢
    have hg3 : 0 < g * g * g := by positivity
    obtain ⟨a, b, c⟩ := hn
    obtain ⟨x, y, z, key⟩ : ∃ x y z : ℤ, crossAba ((⟨g * i, g * j, g * m⟩ : V3 K) - ⟨g * k, g * l, g * o⟩) (-⟨g * k, g * l, g * o⟩) = ⟨g * g * g * x, g * g * g * y, g * g * g * z⟩ := by
      refine ⟨((m - o) * (-k) - (i - k) * (-o)) * (m - o) - ((i - k) * (-l) - (j - l) * (-k)) * (j - l), ((i - k) * (-l) - (j - l) * (-k)) * (i - k) - ((j - l) * (-o) - (m - o) * (-l)) * (m - o),
        ((j - l) * (-o) - (m - o) * (-l)) * (j - l) - ((m - o) * (-k) - (i - k) * (-o)) * (i - k), ?_⟩
      ext <;> simp only [crossAba, V3.cross, V3.sub_x, V3.sub_y, V3.sub_z, V3.neg_x, V3.neg_y, V3.neg_z] <;> push_cast <;> ring
    rw [key] at a b c ⊢
    ext
    · exact small_multiple hg3 h3 a
    · exact small_multiple hg3 h3 b
    · exact small_multiple hg3 h3 c
  unfold gjkRun3T gjkRun
  rw [hd]
  dsimp only
  cases ha : SP.fromMinkowski left right (firstDirection lp rp) with
  | ok a =>
    rw [Res.bind_ok, Res.bind_ok]
    rw [gjkLoop_congr (fun p => OnGrid3 g p.v) hP hr2 reduce3_mem n _ _ (by simpa using hP _ _ ha)]
  | panic => rfl
  | timeout => rfl
end model

/-! ## Small squares that are apart, small cubes that overlap -/

theorem corner2 {h : ℝ} (hh : 0 < h) {d : V2 ℝ} {sx sy : ℝ} (hsx : sx = 1 ∨ sx = -1) (hsy : sy = 1 ∨ sy = -1) (hx : 0 < sx * d.x) (hy : 0 < sy * d.y) :
    maxPoint2 (Rectangle.generateCorners ⟨h, h⟩) d = ⟨sx * h, sy * h⟩ := by
  obtain ⟨h1, h2⟩ := maxPoint2_spec (Rectangle.generateCorners ⟨h, h⟩) d (by simp [Rectangle.generateCorners])
  have px := mul_pos hx hh
  have py := mul_pos hy hh
  simp only [Rectangle.generateCorners, List.mem_cons, List.not_mem_nil, or_false, forall_eq_or_imp, forall_eq] at h1 h2
  obtain ⟨a, b, c, e⟩ := h2
  simp only [Rectangle.generateCorners]
  rcases h1 with h1 | h1 | h1 | h1 <;> rw [h1] at a b c e ⊢ <;> simp only [V2.dot] at a b c e <;> rcases hsx with rfl | rfl <;> rcases hsy with rfl | rfl <;>
    first
    | (ext <;> dsimp only <;> ring1)
    | (exfalso; linarith)

theorem rect_support {h x y : ℝ} (hh : 0 < h) {d : V2 ℝ} {sx sy : ℝ} (hsx : sx = 1 ∨ sx = -1) (hsy : sy = 1 ∨ sy = -1) (hx : 0 < sx * d.x) (hy : 0 < sy * d.y) :
    (Prim2.rectangle (Rectangle.new (2 * h) (2 * h))).supportPoint (shift2 x y).tr d = .ok ⟨sx * h + x, sy * h + y⟩ := by
  show support (maxPoint2 (Rectangle.new (2 * h) (2 * h)).corners) (shift2 x y).tr d = _
  have e : (Rectangle.new (2 * h) (2 * h)).corners = Rectangle.generateCorners ⟨h, h⟩ := by
    show Rectangle.generateCorners ((⟨2 * h, 2 * h⟩ : V2 ℝ) / (1 + 1 : ℝ)) = _
    congr 1
    ext <;> simp <;> ring
  have i : (shift2 x y).tr.invVector d = some d := by simp [shift2, Dec2.tr, M2.apply, M2.transpose, V2.ext_iff]
  unfold support
  rw [e, i, Res.ofOption_some, Res.bind_ok, corner2 hh hsx hsy hx hy]
  show Res.ok _ = _
  congr 1
  ext <;> simp [shift2, Dec2.tr, M2.apply]

theorem corner3 {h : ℝ} (hh : 0 < h) {d : V3 ℝ} {s : ℝ} (hs : s = 1 ∨ s = -1) (hx : 0 < s * d.x) (hy : 0 < s * d.y) (hz : 0 < s * d.z) :
    maxPoint3 (Cuboid.generateCorners ⟨h, h, h⟩) d = ⟨s * h, s * h, s * h⟩ := by
  obtain ⟨h1, h2⟩ := maxPoint3_spec (Cuboid.generateCorners ⟨h, h, h⟩) d (by simp [Cuboid.generateCorners])
  have px := mul_pos hx hh
  have py := mul_pos hy hh
  have pz := mul_pos hz hh
  have m : (⟨s * h, s * h, s * h⟩ : V3 ℝ) ∈ Cuboid.generateCorners ⟨h, h, h⟩ := by
    rcases hs with rfl | rfl <;> simp [Cuboid.generateCorners]
  have h3 := h2 _ m
  generalize maxPoint3 (Cuboid.generateCorners ⟨h, h, h⟩) d = v at h1 h3
  clear h2 m
  simp only [Cuboid.generateCorners, List.mem_cons, List.not_mem_nil, or_false] at h1
  rcases h1 with rfl | rfl | rfl | rfl | rfl | rfl | rfl | rfl <;> simp only [V3.dot] at h3 <;> rcases hs with rfl | rfl <;>
    first
    | (ext <;> dsimp only <;> ring1)
    | (exfalso; linarith)

theorem cube_support {h x y z : ℝ} (nz : V3 ℝ → Bool) (hh : 0 < h) {d : V3 ℝ} {s : ℝ} (hs : s = 1 ∨ s = -1) (hx : 0 < s * d.x) (hy : 0 < s * d.y) (hz : 0 < s * d.z) :
    (Prim3.cuboid (Cuboid.new (2 * h) (2 * h) (2 * h))).supportPoint nz (shift3 x y z).tr d = .ok ⟨s * h + x, s * h + y, s * h + z⟩ := by
  show support (maxPoint3 (Cuboid.new (2 * h) (2 * h) (2 * h)).corners) (shift3 x y z).tr d = _
  have e : (Cuboid.new (2 * h) (2 * h) (2 * h)).corners = Cuboid.generateCorners ⟨h, h, h⟩ := by
    show Cuboid.generateCorners ((⟨2 * h, 2 * h, 2 * h⟩ : V3 ℝ) / (1 + 1 : ℝ)) = _
    congr 1
    ext <;> simp <;> ring
  have i : (shift3 x y z).tr.invVector d = some d := by simp [shift3, Dec3.tr, M3.apply, M3.transpose, V3.ext_iff]
  unfold support
  rw [e, i, Res.ofOption_some, Res.bind_ok, corner3 hh hs hx hy hz]
  show Res.ok _ = _
  congr 1
  ext <;> simp [shift3, Dec3.tr, M3.apply]

/-- **C104 is false in 2D.** For every machine epsilon, two squares of side `10 s` whose centres are `(11 s, 5 s)` apart, `s` small enough that `2400 s³` is within epsilon: there is a gap of width `s` between
them, and GJK reports a collision, for every iteration limit from 2 on. -/
theorem c104_false_2d {eps s : ℝ} (hs : 0 < s) (hsm : 2400 * (s * s * s) ≤ eps) (n : Nat) :
    (∃ x, gjkIntersect2T eps (n + 2) ((Prim2.rectangle (Rectangle.new (2 * (5 * s)) (2 * (5 * s)))).supportPoint (shift2 0 0).tr)
      ((Prim2.rectangle (Rectangle.new (2 * (5 * s)) (2 * (5 * s)))).supportPoint (shift2 (11 * s) (5 * s)).tr) ((shift2 0 0).tr.point 0) ((shift2 (11 * s) (5 * s)).tr.point 0) = .ok (some x)) ∧
    ∀ p q, Image (shift2 0 0).tr (Prim2.rectangle (Rectangle.new (2 * (5 * s)) (2 * (5 * s)))).Points p →
      Image (shift2 (11 * s) (5 * s)).tr (Prim2.rectangle (Rectangle.new (2 * (5 * s)) (2 * (5 * s)))).Points q → p.x + s ≤ q.x := by
  have hh : 0 < 5 * s := by linarith
  constructor
  · set left := (Prim2.rectangle (Rectangle.new (2 * (5 * s)) (2 * (5 * s)))).supportPoint (shift2 0 0).tr with hl
    set right := (Prim2.rectangle (Rectangle.new (2 * (5 * s)) (2 * (5 * s)))).supportPoint (shift2 (11 * s) (5 * s)).tr with hr
    have l1 : ∀ (d : V2 ℝ) (sx sy : ℝ), (sx = 1 ∨ sx = -1) → (sy = 1 ∨ sy = -1) → 0 < sx * d.x → 0 < sy * d.y →
        SP.fromMinkowski left right d = .ok ⟨⟨(10 * sx - 11) * s, (10 * sy - 5) * s⟩, ⟨sx * (5 * s) + 0, sy * (5 * s) + 0⟩, ⟨-sx * (5 * s) + 11 * s, -sy * (5 * s) + 5 * s⟩⟩ := by
      intro d sx sy h1 h2 h3 h4
      have e1 := rect_support (x := 0) (y := 0) hh h1 h2 h3 h4
      have e2 := rect_support (x := 11 * s) (y := 5 * s) (d := -d) (sx := -sx) (sy := -sy) hh (by rcases h1 with rfl | rfl <;> simp) (by rcases h2 with rfl | rfl <;> simp)
        (by simpa using h3) (by simpa using h4)
      unfold SP.fromMinkowski
      rw [hl, hr, e1, e2, Res.bind_ok, Res.bind_ok]
      congr 2
      ext <;> simp <;> ring
    obtain ⟨d, hd, dx, dy, dxy⟩ : ∃ d, firstDirection2T eps ((shift2 0 0).tr.point 0) ((shift2 (11 * s) (5 * s)).tr.point 0) = d ∧ 0 < d.x ∧ 0 < d.y ∧ 0 < 5 * d.y - d.x := by
      refine ⟨_, rfl, ?_⟩
      unfold firstDirection2T
      dsimp only
      split
      · exact ⟨one_pos, one_pos, by norm_num⟩
      · simp only [shift2, Dec2.tr, M2.apply, V2.sub_x, V2.sub_y, V2.add_x, V2.add_y, V2.mul_x, V2.mul_y, V2.zero_x, V2.zero_y]
        refine ⟨?_, ?_, ?_⟩ <;> linarith
    have a0 := l1 d 1 1 (.inl rfl) (.inl rfl) (by linarith) (by linarith)
    have a1 := l1 (-d) (-1) (-1) (.inr rfl) (.inr rfl) (by simpa using dx) (by simpa using dy)
    have a2 := l1 ⟨-(20 * s), 20 * s⟩ (-1) 1 (.inr rfl) (.inl rfl) (by simpa using hs) (by simpa using hs)
    have r1 : ∀ x y z w : V2 ℝ, reduce2T eps [(⟨⟨(10 * 1 - 11) * s, (10 * 1 - 5) * s⟩, x, y⟩ : SP (V2 ℝ)), ⟨⟨(10 * -1 - 11) * s, (10 * -1 - 5) * s⟩, z, w⟩] (-d)
        = (false, [⟨⟨(10 * 1 - 11) * s, (10 * 1 - 5) * s⟩, x, y⟩, ⟨⟨(10 * -1 - 11) * s, (10 * -1 - 5) * s⟩, z, w⟩], ⟨-(20 * s), 20 * s⟩) := by
      intro x y z w
      unfold reduce2T
      dsimp only
      rw [if_pos]
      · congr 2
        ext <;> simp <;> ring
      · have hp : 0 < s * s * s := by positivity
        constructor
        · simp only [tripleProduct, V2.sub_x, V2.sub_y, V2.neg_x, V2.neg_y]
          rw [abs_le]; constructor <;> nlinarith
        · simp only [tripleProduct, V2.sub_x, V2.sub_y, V2.neg_x, V2.neg_y]
          rw [abs_le]; constructor <;> nlinarith
    have r2 : ∀ x y z w u v : V2 ℝ, (reduce2T eps [(⟨⟨(10 * 1 - 11) * s, (10 * 1 - 5) * s⟩, x, y⟩ : SP (V2 ℝ)), ⟨⟨(10 * -1 - 11) * s, (10 * -1 - 5) * s⟩, z, w⟩,
        ⟨⟨(10 * -1 - 11) * s, (10 * 1 - 5) * s⟩, u, v⟩] ⟨-(20 * s), 20 * s⟩).1 = true := by
      intro x y z w u v
      have hp : 0 < s * s * s * s := by positivity
      show (reduce2 _ _).1 = true
      unfold reduce2
      dsimp only
      rw [if_neg, if_neg]
      · simp only [tripleProduct, V2.dot, V2.sub_x, V2.sub_y, V2.neg_x, V2.neg_y]; nlinarith
      · simp only [tripleProduct, V2.dot, V2.sub_x, V2.sub_y, V2.neg_x, V2.neg_y]; nlinarith
    unfold gjkIntersect2T gjkRun2T
    rw [hd]
    dsimp only
    rw [a0, Res.bind_ok, if_neg (by
      have := mul_pos hs dxy
      simp only [Inner.dot, V2.dot]
      rw [not_le]
      linarith)]
    unfold gjkLoop
    rw [a1, Res.bind_ok, if_neg (by
      have h1 := mul_pos hs dx
      have h2 := mul_pos hs dy
      simp only [Inner.dot, V2.dot, V2.neg_x, V2.neg_y]
      rw [not_le]
      linarith)]
    dsimp only
    rw [List.cons_append, List.nil_append, r1, if_neg (by simp)]
    unfold gjkLoop
    dsimp only
    rw [a2, Res.bind_ok, if_neg (by
      have h1 := mul_pos hs hs
      simp only [Inner.dot, V2.dot]
      rw [not_le]
      linarith)]
    rw [List.cons_append, List.cons_append, List.nil_append, if_pos (r2 _ _ _ _ _ _)]
    exact ⟨_, rfl⟩
  · rintro p q ⟨p', ⟨hp, -⟩, rfl⟩ ⟨q', ⟨hq, -⟩, rfl⟩
    simp only [shift2, Dec2.tr, M2.apply, V2.add_x, V2.mul_x, Rectangle.new, Rectangle.newImpl] at hp hq ⊢
    linarith [hp.2, hq.1]

theorem dot_zero3 (a : V3 ℝ) : a.dot 0 = 0 := by simp [V3.dot]

/-- A triangle with a repeated corner leaves GJK in 3D without a direction. -/
theorem reduce3_repeat (A B : SP (V3 ℝ)) (v : V3 ℝ) : reduce3 [A, B, A] v = (false, [B, A, A], 0) := by
  have e0 : (B.v - A.v).cross (A.v - A.v) = 0 := by ext <;> simp [V3.cross]
  have e1 : (B.v - A.v).cross (0 : V3 ℝ) = 0 := by ext <;> simp [V3.cross]
  have e2 : (0 : V3 ℝ).cross (A.v - A.v) = 0 := by ext <;> simp [V3.cross]
  have e3 : (0 : V3 ℝ).dot (-A.v) = 0 := by simp [V3.dot]
  unfold reduce3 checkSide
  dsimp only
  rw [e0, e1, e2, e3]
  simp only [gt_iff_lt, lt_self_iff_false, and_false, if_false, Bool.false_eq_true, or_false]
  congr 2
  ext <;> simp

/-- **C104 is false in 3D.** For every machine epsilon, two cubes of side `10 s` whose centres are `(s, 2 s, 2 s)` apart, `s` small enough that `800 s³` is within epsilon: all points within `3 s` of the first centre
(in each coordinate) belong to both, and GJK answers "no collision", with iterations left. -/
theorem c104_false_3d {eps s : ℝ} (hs : 0 < s) (hsm : 800 * (s * s * s) ≤ eps) (nz nz' : V3 ℝ → Bool) (n : Nat) :
    gjkRun3T eps (n + 3) ((Prim3.cuboid (Cuboid.new (2 * (5 * s)) (2 * (5 * s)) (2 * (5 * s)))).supportPoint nz (shift3 0 0 0).tr)
      ((Prim3.cuboid (Cuboid.new (2 * (5 * s)) (2 * (5 * s)) (2 * (5 * s)))).supportPoint nz' (shift3 s (2 * s) (2 * s)).tr) ((shift3 0 0 0).tr.point 0)
      ((shift3 s (2 * s) (2 * s)).tr.point 0) = .ok .miss ∧
    ∀ p : V3 ℝ, |p.x| ≤ 3 * s → |p.y| ≤ 3 * s → |p.z| ≤ 3 * s → Image (shift3 0 0 0).tr (Prim3.cuboid (Cuboid.new (2 * (5 * s)) (2 * (5 * s)) (2 * (5 * s)))).Points p ∧
      Image (shift3 s (2 * s) (2 * s)).tr (Prim3.cuboid (Cuboid.new (2 * (5 * s)) (2 * (5 * s)) (2 * (5 * s)))).Points p := by
  have hh : 0 < 5 * s := by linarith
  constructor
  · set left := (Prim3.cuboid (Cuboid.new (2 * (5 * s)) (2 * (5 * s)) (2 * (5 * s)))).supportPoint nz (shift3 0 0 0).tr with hl
    set right := (Prim3.cuboid (Cuboid.new (2 * (5 * s)) (2 * (5 * s)) (2 * (5 * s)))).supportPoint nz' (shift3 s (2 * s) (2 * s)).tr with hr
    have l1 : ∀ (d : V3 ℝ) (t : ℝ), (t = 1 ∨ t = -1) → 0 < t * d.x → 0 < t * d.y → 0 < t * d.z →
        SP.fromMinkowski left right d = .ok ⟨⟨(10 * t - 1) * s, (10 * t - 2) * s, (10 * t - 2) * s⟩, ⟨t * (5 * s) + 0, t * (5 * s) + 0, t * (5 * s) + 0⟩,
          ⟨-t * (5 * s) + s, -t * (5 * s) + 2 * s, -t * (5 * s) + 2 * s⟩⟩ := by
      intro d t h1 h2 h3 h4
      have e1 := cube_support (x := 0) (y := 0) (z := 0) nz hh h1 h2 h3 h4
      have e2 := cube_support (x := s) (y := 2 * s) (z := 2 * s) (d := -d) (s := -t) nz' hh (by rcases h1 with rfl | rfl <;> simp)
        (by simpa using h2) (by simpa using h3) (by simpa using h4)
      unfold SP.fromMinkowski
      rw [hl, hr, e1, e2, Res.bind_ok, Res.bind_ok]
      congr 2
      ext <;> simp <;> ring
    obtain ⟨z0, hz0⟩ : ∃ z0, SP.fromMinkowski left right 0 = .ok z0 := by
      have i : ∀ x y z, (shift3 x y z).tr.invVector 0 = some 0 := by
        intro x y z; simp [shift3, Dec3.tr, M3.apply, M3.transpose, V3.ext_iff]
      have n0 : -(0 : V3 ℝ) = 0 := by ext <;> simp
      unfold SP.fromMinkowski
      rw [hl, hr, n0]
      show ∃ z0, (do let a ← support _ _ _; let b ← support _ _ _; pure (⟨a - b, a, b⟩ : SP (V3 ℝ)) : Res _) = _
      unfold support
      rw [i, i]
      exact ⟨_, rfl⟩
    obtain ⟨d, hd, dx, dy, dz⟩ : ∃ d, firstDirection3T eps ((shift3 0 0 0).tr.point 0) ((shift3 s (2 * s) (2 * s)).tr.point 0) = d ∧ 0 < d.x ∧ 0 < d.y ∧ 0 < d.z := by
      refine ⟨_, rfl, ?_⟩
      unfold firstDirection3T
      dsimp only
      split
      · exact ⟨one_pos, one_pos, one_pos⟩
      · simp [shift3, Dec3.tr, M3.apply, hs]
    have h3 : 0 < s * s * s := by positivity
    have a0 := l1 d 1 (.inl rfl) (by linarith) (by linarith) (by linarith)
    have a1 := l1 (-d) (-1) (.inr rfl) (by simpa using dx) (by simpa using dy) (by simpa using dz)
    have a2 := l1 ⟨1 / 10, 400 * (s * s * s), 400 * (s * s * s)⟩ 1 (.inl rfl) (by norm_num) (by simpa using h3) (by simpa using h3)
    set A : SP (V3 ℝ) := ⟨⟨(10 * 1 - 1) * s, (10 * 1 - 2) * s, (10 * 1 - 2) * s⟩, ⟨1 * (5 * s) + 0, 1 * (5 * s) + 0, 1 * (5 * s) + 0⟩,
          ⟨-1 * (5 * s) + s, -1 * (5 * s) + 2 * s, -1 * (5 * s) + 2 * s⟩⟩ with hA
    set B : SP (V3 ℝ) := ⟨⟨(10 * -1 - 1) * s, (10 * -1 - 2) * s, (10 * -1 - 2) * s⟩, ⟨-1 * (5 * s) + 0, -1 * (5 * s) + 0, -1 * (5 * s) + 0⟩,
          ⟨- -1 * (5 * s) + s, - -1 * (5 * s) + 2 * s, - -1 * (5 * s) + 2 * s⟩⟩ with hB
    have r1 : reduce3T eps [A, B] (-d) = (false, [A, B], ⟨1 / 10, 400 * (s * s * s), 400 * (s * s * s)⟩) := by
      have e : crossAba (A.v - B.v) (-B.v) = ⟨-(800 * (s * s * s)), 400 * (s * s * s), 400 * (s * s * s)⟩ := by
        ext <;> simp only [crossAba, V3.cross, hA, hB, V3.sub_x, V3.sub_y, V3.sub_z, V3.neg_x, V3.neg_y, V3.neg_z] <;> ring
      unfold reduce3T
      dsimp only
      rw [e, if_pos]
      refine ⟨?_, ?_, ?_⟩ <;> dsimp only <;> rw [abs_le] <;> constructor <;> linarith
    unfold gjkRun3T
    rw [hd]
    dsimp only
    rw [a0, Res.bind_ok, if_neg (by
      have h1 := mul_pos hs dx
      have h2 := mul_pos hs dy
      have h3 := mul_pos hs dz
      simp only [Inner.dot, V3.dot, hA]
      rw [not_le]
      linarith)]
    unfold gjkLoop
    rw [a1, Res.bind_ok, if_neg (by
      have h1 := mul_pos hs dx
      have h2 := mul_pos hs dy
      have h3 := mul_pos hs dz
      simp only [Inner.dot, V3.dot, hB, V3.neg_x, V3.neg_y, V3.neg_z]
      rw [not_le]
      linarith)]
    dsimp only
    rw [List.cons_append, List.nil_append, r1, if_neg (by simp)]
    unfold gjkLoop
    dsimp only
    rw [a2, Res.bind_ok, if_neg (by
      have h1 := mul_pos hs h3
      simp only [Inner.dot, V3.dot, hA]
      rw [not_le]
      linarith)]
    rw [List.cons_append, List.cons_append, List.nil_append, show reduce3T eps [A, B, A] = reduce3 [A, B, A] from rfl, reduce3_repeat, if_neg (by simp)]
    unfold gjkLoop
    dsimp only
    rw [hz0, Res.bind_ok, if_pos (show Inner.dot z0.v 0 ≤ 0 from le_of_eq (dot_zero3 _))]
    rfl
  · intro p hx hy hz
    rw [abs_le] at hx hy hz
    constructor
    · refine ⟨p, ⟨?_, ?_, ?_⟩, by ext <;> simp [shift3, Dec3.tr, M3.apply]⟩ <;> simp only [Cuboid.new, Cuboid.newImpl] <;> constructor <;> linarith
    · refine ⟨p - ⟨s, 2 * s, 2 * s⟩, ⟨?_, ?_, ?_⟩, by ext <;> simp [shift3, Dec3.tr, M3.apply]⟩ <;> simp only [Cuboid.new, Cuboid.newImpl, V3.sub_x, V3.sub_y, V3.sub_z] <;> constructor <;> linarith

/-! ## Small triangles -/

noncomputable section
/-- `Plane::from_points` with the tolerance of `ulps_eq!`, `src/plane.rs:78-95` -/
def planeFromPointsT (eps : ℝ) (a b c : V3 ℝ) : Option (Plane ℝ) :=
  let v0 := b - a
  let v1 := c - a
  let n := v0.cross v1
  if Near3 eps n then none else
  let n := n.normalize
  let d := -a.dot n
  some (Plane.new n d)

/-- The planes of the faces in `build_half_edges`, `src/primitive/polyhedron.rs:305-310`: `unwrap` panics when there is none. -/
def facePlanesT (eps : ℝ) (vs : List (V3 ℝ)) : List Primitive.Tri → Res (List (Plane ℝ))
  | [] => .ok []
  | f :: fs => do
    let a ← Res.ofOption vs[f.1]?
    let b ← Res.ofOption vs[f.2.1]?
    let c ← Res.ofOption vs[f.2.2]?
    let p ← Res.ofOption (planeFromPointsT eps a b c)
    let ps ← facePlanesT eps vs fs
    return p :: ps
/-- `ConvexPolyhedron::new_with_faces`, `src/primitive/polyhedron.rs:125-141, 282-380`, with the tolerance of `ulps_eq!` -/
def newWithFacesT (eps : ℝ) (vs : List (V3 ℝ)) (fs : List Primitive.Tri) : Res Polyhedron := do
  let planes ← facePlanesT eps vs fs
  let mesh ← (Mesh.init vs.length).addFaces fs
  return ⟨true, vs, mesh, planes, getBound3 vs, Primitive.maxExtent vs⟩
end

/-- The plane is refused exactly when every component of the normal, of the second degree in the sides of the triangle, is within epsilon; else it is the exact one. -/
theorem c104_plane {eps : ℝ} (he : 0 ≤ eps) (a b c : V3 ℝ) : (Near3 eps ((b - a).cross (c - a)) → planeFromPointsT eps a b c = none) ∧
    (¬ Near3 eps ((b - a).cross (c - a)) → (b - a).cross (c - a) ≠ 0 ∧ planeFromPointsT eps a b c = Plane.fromPoints a b c) := by
  constructor
  · intro h
    unfold planeFromPointsT
    dsimp only
    rw [if_pos h]
  · intro h
    have hne : (b - a).cross (c - a) ≠ 0 := by
      intro e; rw [e] at h
      exact h ⟨by simpa using he, by simpa using he, by simpa using he⟩
    refine ⟨hne, ?_⟩
    unfold planeFromPointsT Plane.fromPoints
    dsimp only
    rw [if_neg h, if_neg hne]

/-- With tolerance zero the constructor is the model of the other files. -/
theorem c104_zero_mesh (vs : List (V3 ℝ)) (fs : List Primitive.Tri) : newWithFacesT 0 vs fs = Polyhedron.newWithFaces vs fs := by
  have hp : ∀ a b c, planeFromPointsT 0 a b c = Plane.fromPoints a b c := by
    intro a b c
    unfold planeFromPointsT Plane.fromPoints
    dsimp only
    simp only [near3_zero]
  have : facePlanesT 0 vs fs = facePlanes vs fs := by
    induction fs with
    | nil => rfl
    | cons f fs ih =>
      unfold facePlanesT facePlanes facePlane
      rw [ih]
      simp only [hp]
      cases vs[f.1]? <;> cases vs[f.2.1]? <;> cases vs[f.2.2]? <;> rfl
  unfold newWithFacesT Polyhedron.newWithFaces
  rw [this]

/-- **C104 is false of meshes.** For every machine epsilon: the tetrahedron with edges of length `s` along the axes, `s²` within epsilon: building it with faces panics; with exact comparison it is built. -/
theorem c104_false_mesh {eps s : ℝ} (hs : 0 < s) (hsm : s * s ≤ eps) :
    newWithFacesT eps [⟨s, 0, 0⟩, ⟨0, s, 0⟩, ⟨0, 0, s⟩, ⟨0, 0, 0⟩] tetraFaces = .panic ∧ ∃ p, Polyhedron.newWithFaces [⟨s, 0, 0⟩, ⟨0, s, 0⟩, ⟨0, 0, s⟩, ⟨0, 0, 0⟩] tetraFaces = .ok p := by
  have h2 : 0 < s * s := by positivity
  constructor
  · have : planeFromPointsT eps ⟨0, s, 0⟩ ⟨0, 0, 0⟩ ⟨0, 0, s⟩ = none := by
      refine (c104_plane (by linarith) _ _ _).1 ?_
      refine ⟨?_, ?_, ?_⟩ <;> simp only [V3.cross, V3.sub_x, V3.sub_y, V3.sub_z] <;> rw [abs_le] <;> constructor <;> linarith
    unfold newWithFacesT tetraFaces facePlanesT
    simp only [List.getElem?_cons_succ, List.getElem?_cons_zero, Res.ofOption_some, Res.bind_ok, this]
    rfl
  · obtain ⟨p, h, -⟩ := newWithFaces_ok (vs := [⟨s, 0, 0⟩, ⟨0, s, 0⟩, ⟨0, 0, s⟩, ⟨0, 0, 0⟩]) (fs := tetraFaces) tetra_convex.tri tetra_convex.oriented (by
      intro f hf
      simp only [tetraFaces, List.mem_cons, List.not_mem_nil, or_false] at hf
      have key : ∀ v : V3 ℝ, (v.x ≠ 0 ∨ v.y ≠ 0 ∨ v.z ≠ 0) → v ≠ 0 := by
        rintro v h rfl
        simp at h
      have e := ne_of_gt h2
      rcases hf with rfl | rfl | rfl | rfl <;> refine ⟨_, _, _, rfl, rfl, rfl, key _ ?_⟩ <;> simp [V3.cross, hs.ne'])
    exact ⟨p, h⟩

/-! ## A point and a ray -/
section point
variable {K : Type} [Field K] [LinearOrder K] [IsStrictOrderedRing K]

/-- `RelativeEq::relative_eq` of a float, of the crate `approx`, with the same number as `epsilon` and `max_relative` -/
def relativeEq (eps a b : K) : Bool := |a - b| ≤ eps || |a - b| ≤ max |a| |b| * eps

/-- Point: `Discrete<Ray3>`, `src/ray.rs:94-104`, with the tolerance of `relative_eq` -/
def pointHit3T (eps : K) (p : V3 K) (ray : Ray3 K) : Bool :=
  let l := p - ray.origin
  let tca := l.dot ray.direction
  tca > 0 && relativeEq eps (tca * tca) (l.dot l)
/-- Point: `Discrete<Ray2>`, `src/ray.rs:94-104`, with the tolerance of `relative_eq` -/
def pointHit2T (eps : K) (p : V2 K) (ray : Ray2 K) : Bool :=
  let l := p - ray.origin
  let tca := l.dot ray.direction
  tca > 0 && relativeEq eps (tca * tca) (l.dot l)

theorem relativeEq_iff {eps a b : K} (he : 0 ≤ eps) (ha : 0 ≤ a) (hab : a ≤ b) : relativeEq eps a b = true ↔ b - a ≤ eps * max 1 b := by
  have h : |a - b| = b - a := by rw [abs_sub_comm, abs_of_nonneg (by linarith)]
  unfold relativeEq
  rw [h, abs_of_nonneg ha, abs_of_nonneg (ha.trans hab), max_eq_right hab, Bool.or_eq_true, decide_eq_true_eq, decide_eq_true_eq, mul_max_of_nonneg _ _ he, mul_one, mul_comm eps b]
  exact le_max_iff.symm

/-- **C104 for points and rays**: a ray with unit direction hits a point exactly when the point is in front of the origin of the ray and the square of its distance to the ray is at most epsilon times the greater of 1
and the square of its distance to the origin of the ray: not a condition on the direction alone. -/
theorem c104_point3 {eps : K} (he : 0 ≤ eps) (p : V3 K) (ray : Ray3 K) (hu : ray.direction.dot ray.direction = 1) :
    pointHit3T eps p ray = true ↔ 0 < (p - ray.origin).dot ray.direction ∧
      ∃ t, 0 < t ∧ (p - ray.at t).dot (p - ray.at t) ≤ eps * max 1 ((p - ray.origin).dot (p - ray.origin)) := by
  have dist : ∀ t, (p - ray.at t).dot (p - ray.at t) = (p - ray.origin).dot (p - ray.origin) - (p - ray.origin).dot ray.direction * (p - ray.origin).dot ray.direction +
      (t - (p - ray.origin).dot ray.direction) * (t - (p - ray.origin).dot ray.direction) := by
    intro t
    simp only [Ray3.at, V3.dot, V3.sub_x, V3.sub_y, V3.sub_z, V3.add_x, V3.add_y, V3.add_z, V3.mul_x, V3.mul_y, V3.mul_z] at hu ⊢
    linear_combination (t * t) * hu
  have cs : (p - ray.origin).dot ray.direction * (p - ray.origin).dot ray.direction ≤ (p - ray.origin).dot (p - ray.origin) := by
    have h := dist ((p - ray.origin).dot ray.direction)
    have h0 : 0 ≤ (p - ray.at ((p - ray.origin).dot ray.direction)).dot (p - ray.at ((p - ray.origin).dot ray.direction)) := by
      simp only [V3.dot]; nlinarith [mul_self_nonneg (p - ray.at ((p - ray.origin).dot ray.direction)).x]
    rw [sub_self, mul_zero, add_zero] at h
    linarith
  unfold pointHit3T
  dsimp only
  rw [Bool.and_eq_true, relativeEq_iff he (mul_self_nonneg _) cs, decide_eq_true_eq]
  refine and_congr_right fun h0 => ⟨fun h => ⟨_, h0, ?_⟩, ?_⟩
  · rw [dist, sub_self, mul_zero, add_zero]; exact h
  · rintro ⟨t, -, h⟩
    rw [dist] at h
    have := mul_self_nonneg (t - (p - ray.origin).dot ray.direction)
    linarith
/-- `c104_point3` in 2D. -/
theorem c104_point2 {eps : K} (he : 0 ≤ eps) (p : V2 K) (ray : Ray2 K) (hu : ray.direction.dot ray.direction = 1) :
    pointHit2T eps p ray = true ↔ 0 < (p - ray.origin).dot ray.direction ∧
      ∃ t, 0 < t ∧ (p - ray.at t).dot (p - ray.at t) ≤ eps * max 1 ((p - ray.origin).dot (p - ray.origin)) := by
  have dist : ∀ t, (p - ray.at t).dot (p - ray.at t) = (p - ray.origin).dot (p - ray.origin) - (p - ray.origin).dot ray.direction * (p - ray.origin).dot ray.direction +
      (t - (p - ray.origin).dot ray.direction) * (t - (p - ray.origin).dot ray.direction) := by
    intro t
    simp only [Ray2.at, V2.dot, V2.sub_x, V2.sub_y, V2.add_x, V2.add_y, V2.mul_x, V2.mul_y] at hu ⊢
    linear_combination (t * t) * hu
  have cs : (p - ray.origin).dot ray.direction * (p - ray.origin).dot ray.direction ≤ (p - ray.origin).dot (p - ray.origin) := by
    have h := dist ((p - ray.origin).dot ray.direction)
    have h0 : 0 ≤ (p - ray.at ((p - ray.origin).dot ray.direction)).dot (p - ray.at ((p - ray.origin).dot ray.direction)) := by
      simp only [V2.dot]; nlinarith [mul_self_nonneg (p - ray.at ((p - ray.origin).dot ray.direction)).x]
    rw [sub_self, mul_zero, add_zero] at h
    linarith
  unfold pointHit2T
  dsimp only
  rw [Bool.and_eq_true, relativeEq_iff he (mul_self_nonneg _) cs, decide_eq_true_eq]
  refine and_congr_right fun h0 => ⟨fun h => ⟨_, h0, ?_⟩, ?_⟩
  · rw [dist, sub_self, mul_zero, add_zero]; exact h
  · rintro ⟨t, -, h⟩
    rw [dist] at h
    have := mul_self_nonneg (t - (p - ray.origin).dot ray.direction)
    linarith

/-- **C104 is false of a point and a ray**: the ray along the x axis hits the point `(s, s)` for every `s` with `s²` within epsilon, although that is 45 degrees off, and does not hit `(1, 1)`. -/
theorem c104_false_point {eps s : K} (hs : 0 < s) (hsm : s * s ≤ eps) (he : eps < 1 / 2) :
    pointHit2T eps ⟨s, s⟩ ⟨⟨0, 0⟩, ⟨1, 0⟩⟩ = true ∧ pointHit2T eps (⟨1, 1⟩ : V2 K) ⟨⟨0, 0⟩, ⟨1, 0⟩⟩ = false := by
  have h0 : 0 ≤ eps := (mul_pos hs hs).le.trans hsm
  constructor
  · rw [c104_point2 h0 _ _ (by simp [V2.dot])]
    refine ⟨by simpa [V2.dot] using hs, s, hs, ?_⟩
    have h1 : (⟨s, s⟩ - (⟨⟨0, 0⟩, ⟨1, 0⟩⟩ : Ray2 K).at s : V2 K).dot (⟨s, s⟩ - (⟨⟨0, 0⟩, ⟨1, 0⟩⟩ : Ray2 K).at s) = s * s := by
      simp [V2.dot, Ray2.at]
    rw [h1]
    exact hsm.trans (by have := mul_le_mul_of_nonneg_left (le_max_left 1 ((⟨s, s⟩ - (⟨0, 0⟩ : V2 K)).dot (⟨s, s⟩ - ⟨0, 0⟩))) h0; rwa [mul_one] at this)
  · rw [Bool.eq_false_iff, Ne, c104_point2 h0 _ _ (by simp [V2.dot])]
    rintro ⟨-, t, -, h⟩
    simp only [V2.dot, Ray2.at, V2.sub_x, V2.sub_y, V2.add_x, V2.add_y, V2.mul_x, V2.mul_y] at h
    have h2 : max (1 : K) ((1 - 0) * (1 - 0) + (1 - 0) * (1 - 0)) = 2 := by norm_num
    rw [h2] at h
    nlinarith [mul_self_nonneg (1 - (0 + 1 * t))]
end point

/-- The machine epsilon of `f32`, and squares and cubes of side `10 / 4096` (2.4 mm in a scene in metres). -/
example : 2400 * ((1 / 4096) * (1 / 4096) * (1 / 4096)) ≤ (1 / 2 ^ 23 : ℝ) := by norm_num
/-- The machine epsilon of `f64`, and squares and cubes of side `10 / 2^22` (2.4 µm in a scene in metres). -/
example : 2400 * ((1 / 2 ^ 22) * (1 / 2 ^ 22) * (1 / 2 ^ 22)) ≤ (1 / 2 ^ 52 : ℝ) := by norm_num
/-- The grid of `c104_grid_2d_partial` for `f32`: 1/128. -/
example : (1 / 2 ^ 23 : ℝ) < 1 / 128 ∧ (1 / 2 ^ 23 : ℝ) < 1 / 128 * (1 / 128) * (1 / 128) := by norm_num
end Verif.Minkowski
