import Verif.Minkowski.Translate
import Verif.Minkowski.Toi2Bound
import Verif.Minkowski.DistanceCycle
import Verif.Minkowski.Epa2Bound
/-!
# Turning and scaling the whole scene in 2D (C96)

A similarity of the plane - a turn, a change of units and a shift - applied to both shapes: the collision test gives the same answer, depths and distances
change with the units, normals turn. The tolerance of EPA is a length; those of distance and time of impact are squares of lengths.
-/
namespace Verif.Minkowski
open Verif Geom Primitive
set_option linter.unusedSectionVars false
noncomputable section
open Classical

/-- A similarity of the plane that keeps the orientation: the turn by the angle with cosine `a` and sine `b`, the factor `k`, the shift `t`. -/
structure Sim2 where
  a : ℝ
  b : ℝ
  k : ℝ
  t : V2 ℝ
  unit : a * a + b * b = 1
  pos : 0 < k

/-- The turn alone (directions and normals). -/
def Sim2.turn (σ : Sim2) (v : V2 ℝ) : V2 ℝ := ⟨σ.a * v.x - σ.b * v.y, σ.b * v.x + σ.a * v.y⟩
/-- Turn and factor (differences of points). -/
def Sim2.lin (σ : Sim2) (v : V2 ℝ) : V2 ℝ := σ.turn v * σ.k
/-- The similarity on points. -/
def Sim2.at (σ : Sim2) (p : V2 ℝ) : V2 ℝ := σ.lin p + σ.t
/-- A placement followed by the similarity. -/
def Sim2.placed (σ : Sim2) (D : Dec2 ℝ) : Dec2 ℝ := ⟨D.scale * σ.k, ⟨σ.turn D.rot.c0, σ.turn D.rot.c1⟩, σ.at D.disp⟩

theorem Sim2.dot_turn (σ : Sim2) (v w : V2 ℝ) : (σ.turn v).dot (σ.turn w) = v.dot w := by
  have := σ.unit
  simp only [Sim2.turn, V2.dot]
  linear_combination (v.x * w.x + v.y * w.y) * this
theorem Sim2.dot_lin (σ : Sim2) (v w : V2 ℝ) : (σ.lin v).dot (σ.lin w) = v.dot w * (σ.k * σ.k) := by
  rw [← σ.dot_turn v w]; simp only [Sim2.lin, V2.dot, V2.mul_x, V2.mul_y]; ring
theorem Sim2.dot_mul (σ : Sim2) (v w : V2 ℝ) (c e : ℝ) : (σ.turn v * c).dot (σ.turn w * e) = v.dot w * (c * e) := by
  rw [← σ.dot_turn v w]; simp only [V2.dot, V2.mul_x, V2.mul_y]; ring
theorem Sim2.turn_neg (σ : Sim2) (v : V2 ℝ) : σ.turn (-v) = -σ.turn v := by ext <;> simp [Sim2.turn] <;> ring
theorem Sim2.turn_neg_mul (σ : Sim2) (v : V2 ℝ) (c : ℝ) : -(σ.turn v * c) = σ.turn (-v) * c := by ext <;> simp [Sim2.turn] <;> ring
theorem Sim2.lin_neg (σ : Sim2) (v : V2 ℝ) : σ.lin (-v) = -σ.lin v := by ext <;> simp [Sim2.lin, Sim2.turn] <;> ring
theorem Sim2.lin_sub (σ : Sim2) (v w : V2 ℝ) : σ.lin (v - w) = σ.lin v - σ.lin w := by ext <;> simp [Sim2.lin, Sim2.turn] <;> ring
theorem Sim2.lin_mul (σ : Sim2) (v : V2 ℝ) (c : ℝ) : σ.lin (v * c) = σ.lin v * c := by ext <;> simp [Sim2.lin, Sim2.turn] <;> ring
theorem Sim2.at_sub (σ : Sim2) (p q : V2 ℝ) : σ.at p - σ.at q = σ.lin (p - q) := by ext <;> simp [Sim2.at, Sim2.lin, Sim2.turn] <;> ring
theorem Sim2.turn_zero (σ : Sim2) : σ.turn 0 = 0 := by ext <;> simp [Sim2.turn]
theorem Sim2.lin_zero (σ : Sim2) : σ.lin 0 = 0 := by ext <;> simp [Sim2.lin, Sim2.turn]
theorem Sim2.turn_eq_zero (σ : Sim2) {v : V2 ℝ} {c : ℝ} (hc : 0 < c) : σ.turn v * c = 0 ↔ v = 0 := by
  constructor
  · intro h
    have h1 := σ.dot_mul v v c c
    rw [h] at h1
    by_contra hv
    have h2 := dot_self_pos2 hv
    have : 0 < v.dot v * (c * c) := by positivity
    simp [V2.dot] at h1
    simp only [V2.dot] at this
    rcases h1 with h1 | h1
    · rw [h1] at this; simp at this
    · linarith
  · rintro rfl; ext <;> simp [Sim2.turn]
theorem Sim2.lin_eq_zero (σ : Sim2) {v : V2 ℝ} : σ.lin v = 0 ↔ v = 0 := σ.turn_eq_zero σ.pos
theorem Sim2.lin_inj (σ : Sim2) {v w : V2 ℝ} : σ.lin v = σ.lin w ↔ v = w := by
  constructor
  · intro h
    have h1 : σ.lin (v - w) = 0 := by rw [σ.lin_sub, h]; ext <;> simp
    rw [σ.lin_eq_zero] at h1
    have hx := congrArg V2.x h1
    have hy := congrArg V2.y h1
    simp at hx hy
    ext <;> linarith
  · rintro rfl; rfl
theorem Sim2.norm_turn (σ : Sim2) (v : V2 ℝ) : (σ.turn v).norm = v.norm := by unfold V2.norm; rw [σ.dot_turn]
theorem Sim2.triple_lin (σ : Sim2) (a b c : V2 ℝ) : tripleProduct (σ.lin a) (σ.lin b) (σ.lin c) = σ.turn (tripleProduct a b c) * (σ.k * σ.k * σ.k) := by
  have h := σ.unit
  have e : ∀ a b c : V2 ℝ, tripleProduct a b c = b * a.dot c - a * b.dot c := by
    intro a b c; ext <;> simp [tripleProduct, V2.dot]
  rw [e, e, σ.dot_lin, σ.dot_lin]
  ext <;> simp only [Sim2.lin, Sim2.turn, V2.sub_x, V2.sub_y, V2.mul_x, V2.mul_y] <;> ring

/-- A support point of the changed scene. -/
def Sim2.sp (σ : Sim2) (p : SP (V2 ℝ)) : SP (V2 ℝ) := ⟨σ.lin p.v, σ.at p.supA, σ.at p.supB⟩

/-- `f'` is the support function of the changed shape: asked in a turned direction, of whatever length, it gives the changed point. -/
def Sim2.Follows (σ : Sim2) (f f' : V2 ℝ → Res (V2 ℝ)) : Prop := ∀ (d : V2 ℝ) (c : ℝ), 0 < c → f' (σ.turn d * c) = (f d).mapOk σ.at

variable {σ : Sim2} {left right left' right' : V2 ℝ → Res (V2 ℝ)}

theorem mink_sim (hl : σ.Follows left left') (hr : σ.Follows right right') (d : V2 ℝ) {c : ℝ} (hc : 0 < c) :
    SP.fromMinkowski left' right' (σ.turn d * c) = (SP.fromMinkowski left right d).mapOk σ.sp := by
  unfold SP.fromMinkowski
  rw [hl d c hc, σ.turn_neg_mul, hr (-d) c hc]
  cases left d with
  | ok a =>
    cases right (-d) with
    | ok b =>
      show Res.ok _ = Res.ok _
      rw [σ.at_sub]; rfl
    | panic => rfl
    | timeout => rfl
  | panic => rfl
  | timeout => rfl

theorem pos_iff_mul {x c : ℝ} (hc : 0 < c) : x * c > 0 ↔ x > 0 := mul_pos_iff_of_pos_right hc
theorem nonpos_iff_mul {x c : ℝ} (hc : 0 < c) : x * c ≤ 0 ↔ x ≤ 0 := by
  constructor
  · intro h; by_contra h1; push Not at h1; have := mul_pos h1 hc; linarith
  · intro h; exact mul_nonpos_of_nonpos_of_nonneg h hc.le

theorem reduce2_sim (s : List (SP (V2 ℝ))) (d : V2 ℝ) {c : ℝ} (hc : 0 < c) :
    ∃ e : ℝ, 0 < e ∧ reduce2 (s.map σ.sp) (σ.turn d * c) = ((reduce2 s d).1, (reduce2 s d).2.1.map σ.sp, σ.turn (reduce2 s d).2.2 * e) := by
  have hk := σ.pos
  match s with
  | [] => exact ⟨c, hc, rfl⟩
  | [_] => exact ⟨c, hc, rfl⟩
  | [s0, s1] =>
    simp only [List.map_cons, List.map_nil, reduce2, Sim2.sp]
    rw [← σ.lin_sub, ← σ.lin_neg, σ.triple_lin]
    by_cases h : tripleProduct (s0.v - s1.v) (-s1.v) (s0.v - s1.v) = 0
    · refine ⟨σ.k, hk, ?_⟩
      rw [if_pos h, if_pos ((σ.turn_eq_zero (by positivity)).mpr h)]
      congr 2
      ext <;> simp only [Sim2.lin, Sim2.turn, V2.mul_x, V2.mul_y] <;> ring
    · refine ⟨σ.k * σ.k * σ.k, by positivity, ?_⟩
      rw [if_neg h, if_neg (fun h' => h ((σ.turn_eq_zero (by positivity)).mp h'))]
  | [s0, s1, s2] =>
    have key : ∀ a b o : V2 ℝ, (tripleProduct (σ.lin a) (σ.lin b) (σ.lin b)).dot (σ.lin o) > 0 ↔ (tripleProduct a b b).dot o > 0 := by
      intro a b o
      rw [σ.triple_lin, Sim2.lin, σ.dot_mul]
      exact pos_iff_mul (by positivity)
    simp only [List.map_cons, List.map_nil, reduce2, Sim2.sp]
    rw [← σ.lin_sub, ← σ.lin_sub, ← σ.lin_neg]
    simp only [key]
    rw [σ.triple_lin, σ.triple_lin]
    split
    · exact ⟨_, by positivity, rfl⟩
    · split
      · exact ⟨_, by positivity, rfl⟩
      · exact ⟨c, hc, rfl⟩
  | _ :: _ :: _ :: _ :: _ => exact ⟨c, hc, rfl⟩

/-- The outcome of GJK in the changed scene. -/
def Out.sim (σ : Sim2) : Out (V2 ℝ) → Out (V2 ℝ)
  | .hit s => .hit (s.map σ.sp)
  | .miss => .miss
  | .exhausted => .exhausted

theorem gjkLoop_sim (hl : σ.Follows left left') (hr : σ.Follows right right') :
    ∀ n s d (c : ℝ), 0 < c → gjkLoop reduce2 left' right' n (s.map σ.sp) (σ.turn d * c) = (gjkLoop reduce2 left right n s d).mapOk (Out.sim σ)
  | 0, _, _, _, _ => rfl
  | n + 1, s, d, c, hc => by
    unfold gjkLoop
    rw [mink_sim hl hr d hc, mapOk_bind, bind_mapOk]
    refine mapOk_congr fun a => ?_
    have hv : Inner.dot (σ.sp a).v (σ.turn d * c) = Inner.dot a.v d * (σ.k * c) := σ.dot_mul a.v d σ.k c
    have hk := σ.pos
    rw [hv]
    by_cases h : Inner.dot a.v d ≤ 0
    · rw [if_pos h, if_pos ((nonpos_iff_mul (by positivity)).mpr h)]; rfl
    · rw [if_neg h, if_neg (fun h' => h ((nonpos_iff_mul (by positivity)).mp h'))]
      have e : s.map σ.sp ++ [σ.sp a] = (s ++ [a]).map σ.sp := by simp
      obtain ⟨c', hc', hb⟩ := reduce2_sim (σ := σ) (s ++ [a]) d hc
      rw [e, hb]
      dsimp only
      by_cases h2 : (reduce2 (s ++ [a]) d).1 = true
      · rw [if_pos h2, if_pos h2]; rfl
      · rw [if_neg h2, if_neg h2]
        exact gjkLoop_sim hl hr n _ _ _ hc'

/-- The first direction turns with the scene, unless it is the default `(1, 1)` for two shapes in the same place and the scene really turns. -/
theorem firstDirection_sim (inst : DecidableEq (V2 ℝ)) {lp rp : V2 ℝ} (h : lp ≠ rp ∨ (σ.a = 1 ∧ σ.b = 0)) :
    ∃ c : ℝ, 0 < c ∧ @firstDirection (V2 ℝ) ℝ _ _ inst _ (σ.at lp) (σ.at rp) = σ.turn (@firstDirection (V2 ℝ) ℝ _ _ inst _ lp rp) * c := by
  unfold firstDirection
  dsimp only
  rw [σ.at_sub]
  by_cases h0 : rp - lp = 0
  · have hne : lp = rp := by
      have hx := congrArg V2.x h0
      have hy := congrArg V2.y h0
      simp at hx hy
      ext <;> linarith
    obtain ⟨ha, hb⟩ := h.resolve_left (fun h => h hne)
    refine ⟨1, one_pos, ?_⟩
    rw [if_pos h0, if_pos (σ.lin_eq_zero.mpr h0)]
    show (⟨1, 1⟩ : V2 ℝ) = σ.turn ⟨1, 1⟩ * (1 : ℝ)
    ext <;> simp [Sim2.turn, ha, hb]
  · refine ⟨σ.k, σ.pos, ?_⟩
    rw [if_neg h0, if_neg (fun h' => h0 (σ.lin_eq_zero.mp h'))]
    rfl

theorem gjkIntersect_sim (hl : σ.Follows left left') (hr : σ.Follows right right') (n : Nat) {lp rp : V2 ℝ} (h : lp ≠ rp ∨ (σ.a = 1 ∧ σ.b = 0)) :
    gjkIntersect reduce2 n left' right' (σ.at lp) (σ.at rp) = (gjkIntersect reduce2 n left right lp rp).mapOk (Option.map (List.map σ.sp)) := by
  have hrun : gjkRun reduce2 n left' right' (σ.at lp) (σ.at rp) = (gjkRun reduce2 n left right lp rp).mapOk (Out.sim σ) := by
    unfold gjkRun
    obtain ⟨c, hc, hd⟩ := firstDirection_sim (σ := σ) inferInstance h
    rw [hd]
    dsimp only
    rw [mink_sim hl hr _ hc, mapOk_bind, bind_mapOk]
    refine mapOk_congr fun a => ?_
    have hv : Inner.dot (σ.sp a).v (σ.turn (firstDirection lp rp) * c) = Inner.dot a.v (firstDirection lp rp) * (σ.k * c) := σ.dot_mul a.v _ σ.k c
    have hk := σ.pos
    rw [hv]
    by_cases h : Inner.dot a.v (firstDirection lp rp) ≤ 0
    · rw [if_pos h, if_pos ((nonpos_iff_mul (by positivity)).mpr h)]; rfl
    · rw [if_neg h, if_neg (fun h' => h ((nonpos_iff_mul (by positivity)).mp h')), σ.turn_neg_mul]
      exact gjkLoop_sim hl hr n [a] _ _ hc
  unfold gjkIntersect
  rw [hrun, mapOk_bind, bind_mapOk]
  refine mapOk_congr fun a => ?_
  cases a <;> rfl

/-! ## Distance and time of impact -/

theorem closestOnEdge2_sim (a b : V2 ℝ) : closestOnEdge2 (σ.lin a) (σ.lin b) = (closestOnEdge2 a b).map σ.lin := by
  by_cases hab : a = b
  · subst hab
    have h0 : ∀ a : V2 ℝ, a - a = 0 := by intro a; ext <;> simp
    simp [closestOnEdge2, h0]
  · have hne : b - a ≠ 0 := by
      intro e
      apply hab
      have hx := congrArg V2.x e
      have hy := congrArg V2.y e
      simp at hx hy
      ext <;> linarith
    obtain ⟨c, hc⟩ : ∃ c, closestOnEdge2 a b = some c := by
      unfold closestOnEdge2
      simp only [hne, if_false]
      exact ⟨_, rfl⟩
    obtain ⟨-, ⟨t, t0, t1, h3⟩, h4, h5⟩ := closestOnEdge2_spec hc
    have hk := σ.pos
    rw [hc, Option.map_some]
    refine closestOnEdge2_eq (fun e => hab (σ.lin_inj.mp e)) ⟨t, t0, t1, ?_⟩ ?_ ?_
    · rw [h3]; ext <;> simp [Sim2.lin, Sim2.turn] <;> ring
    · rw [σ.dot_lin, σ.dot_lin]; exact mul_le_mul_of_nonneg_right h4 (by positivity)
    · rw [σ.dot_lin, σ.dot_lin]; exact mul_le_mul_of_nonneg_right h5 (by positivity)

theorem closest2_sim (s : List (SP (V2 ℝ))) : closest2 (s.map σ.sp) = (closest2 s).mapOk fun c => (c.1.map σ.lin, c.2.map σ.sp) := by
  unfold closest2
  obtain ⟨e, he, hb⟩ := reduce2_sim (σ := σ) s 0 one_pos
  have h0 : σ.turn 0 * (1 : ℝ) = 0 := by ext <;> simp [Sim2.turn]
  rw [h0] at hb
  rw [hb]
  dsimp only
  by_cases h : (reduce2 s 0).1 = true
  · have hz : (reduce2 s (0 : V2 ℝ)).2.2 = 0 := by
      revert h
      unfold reduce2
      split
      · dsimp only
        split
        · simp
        · split <;> simp
      · simp
      · simp
    rw [if_pos h, if_pos h, hz]
    show Res.ok (some (σ.turn 0 * e), _) = Res.ok (some (σ.lin 0), _)
    congr 3
    ext <;> simp [Sim2.lin, Sim2.turn]
  · rw [if_neg h, if_neg h]
    generalize (reduce2 s (0 : V2 ℝ)).2.1 = t
    match t with
    | [] => rfl
    | [_] => rfl
    | s0 :: s1 :: _ =>
      show Res.ok (closestOnEdge2 (σ.lin s1.v) (σ.lin s0.v), _) = Res.ok ((closestOnEdge2 s1.v s0.v).map σ.lin, _)
      rw [closestOnEdge2_sim]
      rfl

theorem mag_sim (v : V2 ℝ) : mag (-σ.lin v) = mag (-v) * σ.k := by
  have hk := σ.pos
  show Real.sqrt ((-σ.lin v).dot (-σ.lin v)) = Real.sqrt ((-v).dot (-v)) * σ.k
  rw [← σ.lin_neg, σ.dot_lin, Real.sqrt_mul (by simp only [V2.dot]; nlinarith [mul_self_nonneg (-v).x, mul_self_nonneg (-v).y]), Real.sqrt_mul_self hk.le]

theorem lt_iff_mul {x y c : ℝ} (hc : 0 < c) : x * c < y * c ↔ x < y := mul_lt_mul_iff_left₀ hc

theorem distanceLoop_sim (hl : σ.Follows left left') (hr : σ.Follows right right') (tolerance : ℝ) (nan : Res (SP (V2 ℝ))) :
    ∀ n s, distanceLoop closest2 (tolerance * (σ.k * σ.k)) left' right' (nan.mapOk σ.sp) n (s.map σ.sp) =
      (distanceLoop closest2 tolerance left right nan n s).mapOk (Option.map (· * σ.k))
  | 0, _ => rfl
  | n + 1, s => by
    have hk := σ.pos
    unfold distanceLoop
    rw [closest2_sim, mapOk_bind, bind_mapOk]
    refine mapOk_congr fun c => ?_
    obtain ⟨c1, c2⟩ := c
    dsimp only
    have e : ∀ a, c2.map σ.sp ++ [σ.sp a] = (c2 ++ [a]).map σ.sp := by intro a; simp
    cases c1 with
    | none =>
      dsimp only [Option.map_none]
      rw [mapOk_bind, bind_mapOk]
      refine mapOk_congr fun a => ?_
      rw [e]
      exact distanceLoop_sim hl hr tolerance nan n _
    | some v =>
      dsimp only [Option.map_some]
      by_cases h0 : v = 0
      · rw [if_pos h0, if_pos (σ.lin_eq_zero.mpr h0)]; rfl
      · rw [if_neg h0, if_neg (fun h => h0 (σ.lin_eq_zero.mp h))]
        have hm : SP.fromMinkowski left' right' (-σ.lin v) = (SP.fromMinkowski left right (-v)).mapOk σ.sp := by
          rw [← σ.lin_neg]; exact mink_sim hl hr (-v) hk
        rw [hm, mapOk_bind, bind_mapOk]
        refine mapOk_congr fun a => ?_
        rw [List.getElem?_map, ofOption_map, mapOk_bind, bind_mapOk]
        refine mapOk_congr fun s0 => ?_
        have hd : ∀ p : SP (V2 ℝ), Inner.dot (σ.sp p).v (-σ.lin v) = Inner.dot p.v (-v) * (σ.k * σ.k) := by
          intro p; rw [← σ.lin_neg]; exact σ.dot_lin p.v (-v)
        rw [hd, hd, ← sub_mul]
        by_cases h1 : Inner.dot a.v (-v) - Inner.dot s0.v (-v) < tolerance
        · rw [if_pos h1, if_pos ((lt_iff_mul (by positivity)).mpr h1), mag_sim]; rfl
        · rw [if_neg h1, if_neg (fun h => h1 ((lt_iff_mul (by positivity)).mp h)), e]
          exact distanceLoop_sim hl hr tolerance nan n _

theorem gjkDistance_sim (hl : σ.Follows left left') (hr : σ.Follows right right') (tolerance : ℝ) (n : Nat) (nan : Res (SP (V2 ℝ))) {lp rp : V2 ℝ}
    (h : lp ≠ rp ∨ (σ.a = 1 ∧ σ.b = 0)) :
    gjkDistance closest2 (tolerance * (σ.k * σ.k)) n left' right' (nan.mapOk σ.sp) (σ.at lp) (σ.at rp) =
      (gjkDistance closest2 tolerance n left right nan lp rp).mapOk (Option.map (· * σ.k)) := by
  unfold gjkDistance
  obtain ⟨c, hc, hd⟩ := firstDirection_sim (σ := σ) (fun a b => propDecidable (a = b)) h
  rw [hd]
  dsimp only
  rw [mink_sim hl hr _ hc, mapOk_bind, bind_mapOk]
  refine mapOk_congr fun a => ?_
  rw [σ.turn_neg_mul, mink_sim hl hr _ hc, mapOk_bind, bind_mapOk]
  refine mapOk_congr fun b => ?_
  exact distanceLoop_sim hl hr tolerance nan n [a, b]

/-- The state of the time of impact loop in the changed scene. -/
def Impact.sim (σ : Sim2) (st : Impact (V2 ℝ)) : Impact (V2 ℝ) := ⟨st.lambda, σ.lin st.normal, σ.lin st.rayOrigin, σ.lin st.v⟩

theorem subPoint_sim (p : SP (V2 ℝ)) (q : V2 ℝ) : (σ.sp p).subPoint (σ.lin q) = σ.sp (p.subPoint q) := by
  simp only [SP.subPoint, Sim2.sp, σ.lin_sub]

theorem toiLoop_sim (hl : σ.Follows left left') (hr : σ.Follows right right') (tolerance : ℝ) (ray : V2 ℝ) :
    ∀ n s st, toiLoop closest2 (tolerance * (σ.k * σ.k)) left' right' (σ.lin ray) n (s.map σ.sp) (st.sim σ) =
      (toiLoop closest2 tolerance left right ray n s st).mapOk (Option.map (Impact.sim σ)) := by
  have hk := σ.pos
  have hkk : 0 < σ.k * σ.k := by positivity
  have hd : ∀ v w : V2 ℝ, Inner.dot (σ.lin v) (σ.lin w) = Inner.dot v w * (σ.k * σ.k) := σ.dot_lin
  intro n
  induction n with
  | zero =>
    intro s st
    unfold toiLoop
    have hv : (st.sim σ).v = σ.lin st.v := rfl
    rw [hv, hd]
    by_cases h : Inner.dot st.v st.v > tolerance
    · rw [if_pos h, if_pos ((lt_iff_mul hkk).mpr h)]; rfl
    · rw [if_neg h, if_neg (fun h' => h ((lt_iff_mul hkk).mp h'))]; rfl
  | succ n ih =>
    intro s st
    unfold toiLoop
    have hv : (st.sim σ).v = σ.lin st.v := rfl
    have hlam : (st.sim σ).lambda = st.lambda := rfl
    have hro : (st.sim σ).rayOrigin = σ.lin st.rayOrigin := rfl
    rw [hv, hd, hlam]
    by_cases h : Inner.dot st.v st.v > tolerance
    · rw [if_pos h, if_pos ((lt_iff_mul hkk).mpr h)]
      dsimp only
      have hm : SP.fromMinkowski left' right' (-σ.lin st.v) = (SP.fromMinkowski left right (-st.v)).mapOk σ.sp := by
        rw [← σ.lin_neg]; exact mink_sim hl hr (-st.v) hk
      rw [hm, mapOk_bind, bind_mapOk]
      refine mapOk_congr fun p => ?_
      have hpv : (σ.sp p).v = σ.lin p.v := rfl
      rw [hpv, hd, hd, ← mul_assoc st.lambda]
      by_cases h1 : Inner.dot st.v p.v > st.lambda * Inner.dot st.v ray
      · rw [if_pos h1, if_pos ((lt_iff_mul hkk).mpr h1)]
        by_cases h2 : Inner.dot st.v ray > 0
        · rw [if_pos h2, if_pos ((pos_iff_mul hkk).mpr h2)]
          rw [mul_div_mul_right _ _ hkk.ne']
          by_cases h3 : Inner.dot st.v p.v / Inner.dot st.v ray > 1
          · rw [if_pos h3, if_pos h3]; rfl
          · rw [if_neg h3, if_neg h3]
            rw [← σ.lin_mul, subPoint_sim]
            have := closest2_sim (σ := σ) [p.subPoint (ray * (Inner.dot st.v p.v / Inner.dot st.v ray))]
            simp only [List.map_cons, List.map_nil] at this
            rw [this, mapOk_bind, bind_mapOk]
            refine mapOk_congr fun c => ?_
            dsimp only
            rw [ofOption_map, mapOk_bind, bind_mapOk]
            refine mapOk_congr fun v => ?_
            rw [← σ.lin_neg]
            exact ih c.2 ⟨_, -st.v, ray * _, v⟩
        · rw [if_neg h2, if_neg (fun h' => h2 ((pos_iff_mul hkk).mp h'))]; rfl
      · rw [if_neg h1, if_neg (fun h' => h1 ((lt_iff_mul hkk).mp h')), hro, subPoint_sim]
        have e : s.map σ.sp ++ [σ.sp (p.subPoint st.rayOrigin)] = (s ++ [p.subPoint st.rayOrigin]).map σ.sp := by simp
        rw [e, closest2_sim, mapOk_bind, bind_mapOk]
        refine mapOk_congr fun c => ?_
        dsimp only
        rw [ofOption_map, mapOk_bind, bind_mapOk]
        refine mapOk_congr fun v => ?_
        exact ih c.2 ⟨st.lambda, st.normal, st.rayOrigin, v⟩
    · rw [if_neg h, if_neg (fun h' => h ((lt_iff_mul hkk).mp h'))]; rfl

theorem normalize_sim (v : V2 ℝ) {c : ℝ} (hc : 0 < c) : (σ.turn v * c).normalize = σ.turn v.normalize := by
  unfold V2.normalize
  rw [V2.norm_smul, abs_of_pos hc, σ.norm_turn]
  by_cases h : v.norm = 0
  · have hv := (V2.norm_eq_zero v).mp h
    subst hv
    ext <;> simp [Sim2.turn]
  · ext <;> simp only [Sim2.turn, V2.mul_x, V2.mul_y] <;> field_simp

/-- The contact of the changed scene without its point: time, normal, depth. -/
def Contact.simTime (σ : Sim2) (c : Contact (V2 ℝ) ℝ) : ℝ × V2 ℝ × ℝ := (c.toi, σ.turn c.normal, c.depth * σ.k)

theorem gjkToi_sim (hl : σ.Follows left left') (hr : σ.Follows right right') (tolerance : ℝ) (fuel : Nat) (lStart lEnd rStart rEnd : V2 ℝ) (place place' : ℝ → V2 ℝ → V2 ℝ) :
    (gjkToi closest2 V2.normalize (tolerance * (σ.k * σ.k)) fuel left' right' (σ.at lStart) (σ.at lEnd) (σ.at rStart) (σ.at rEnd) place').mapOk
        (Option.map fun c => (c.toi, c.normal, c.depth)) =
      (gjkToi closest2 V2.normalize tolerance fuel left right lStart lEnd rStart rEnd place).mapOk
        (Option.map fun c => (c.toi, σ.turn c.normal, c.depth * σ.k)) := by
  unfold gjkToi
  rw [σ.at_sub, σ.at_sub, ← σ.lin_sub]
  dsimp only
  have hk := σ.pos
  have hm : SP.fromMinkowski left' right' (-σ.lin (rEnd - rStart - (lEnd - lStart))) = (SP.fromMinkowski left right (-(rEnd - rStart - (lEnd - lStart)))).mapOk σ.sp := by
    rw [← σ.lin_neg]; exact mink_sim hl hr _ hk
  rw [hm, mapOk_bind, bind_mapOk, bind_mapOk]
  refine mapOk_congr fun p => ?_
  have := toiLoop_sim hl hr tolerance (rEnd - rStart - (lEnd - lStart)) fuel [] ⟨0, 0, 0, p.v⟩
  rw [List.map_nil] at this
  have e : (⟨0, 0, 0, (σ.sp p).v⟩ : Impact (V2 ℝ)) = Impact.sim σ ⟨0, 0, 0, p.v⟩ := by
    simp only [Impact.sim, Sim2.sp, σ.lin_zero]
  rw [e, this, mapOk_bind, bind_mapOk, bind_mapOk]
  refine mapOk_congr fun o => ?_
  cases o with
  | none => rfl
  | some st =>
    show Res.ok (some (st.lambda, -(V2.normalize (σ.lin st.normal)), mag (σ.lin st.v))) = Res.ok (some (st.lambda, σ.turn (-(V2.normalize st.normal)), mag st.v * σ.k))
    have h1 : V2.normalize (σ.lin st.normal) = σ.turn (V2.normalize st.normal) := normalize_sim _ hk
    have h2 := mag_sim (σ := σ) (-st.v)
    have h3 : ∀ v : V2 ℝ, - -v = v := by intro v; ext <;> simp
    rw [σ.lin_neg, h3, h3] at h2
    rw [h1, h2, σ.turn_neg]

/-! ## EPA -/

/-- The edge of the changed scene. -/
def EEdge.sim (σ : Sim2) (e : EEdge) : EEdge := ⟨σ.turn e.normal, e.distance * σ.k, e.index⟩

theorem closestEdgeLoop_sim (vs : List (V2 ℝ)) : ∀ is best, closestEdgeLoop (vs.map σ.lin) is (best.map (EEdge.sim σ)) =
    (closestEdgeLoop vs is best).mapOk (Option.map (EEdge.sim σ))
  | [], _ => rfl
  | i :: is, best => by
    have hk := σ.pos
    unfold closestEdgeLoop
    dsimp only
    rw [List.length_map, List.getElem?_map, ofOption_map, mapOk_bind, bind_mapOk]
    refine mapOk_congr fun a => ?_
    rw [List.getElem?_map, ofOption_map, mapOk_bind, bind_mapOk]
    refine mapOk_congr fun b => ?_
    rw [← σ.lin_sub, σ.triple_lin]
    by_cases h : tripleProduct (b - a) a (b - a) = 0
    · rw [if_pos h, if_pos ((σ.turn_eq_zero (by positivity)).mpr h)]
      exact closestEdgeLoop_sim vs is best
    · rw [if_neg h, if_neg (fun h' => h ((σ.turn_eq_zero (by positivity)).mp h')), normalize_sim _ (by positivity)]
      have hd : (σ.turn (tripleProduct (b - a) a (b - a)).normalize).dot (σ.lin a) = (tripleProduct (b - a) a (b - a)).normalize.dot a * σ.k := by
        rw [← σ.dot_turn _ a]; simp only [Sim2.lin, V2.dot, V2.mul_x, V2.mul_y]; ring
      rw [hd]
      cases best with
      | none => exact closestEdgeLoop_sim vs is (some ⟨_, _, _⟩)
      | some g =>
        dsimp only [Option.map_some]
        have hg : (EEdge.sim σ g).distance = g.distance * σ.k := rfl
        rw [hg]
        by_cases h1 : (tripleProduct (b - a) a (b - a)).normalize.dot a < g.distance
        · rw [if_pos h1, if_pos ((lt_iff_mul hk).mpr h1)]
          exact closestEdgeLoop_sim vs is (some ⟨_, _, _⟩)
        · rw [if_neg h1, if_neg (fun h' => h1 ((lt_iff_mul hk).mp h'))]
          exact closestEdgeLoop_sim vs is (some g)

theorem closestEdge_sim (s : List (SP (V2 ℝ))) : closestEdge (s.map σ.sp) = (closestEdge s).mapOk (Option.map (EEdge.sim σ)) := by
  unfold closestEdge
  have hm : (s.map σ.sp).map SP.v = (s.map SP.v).map σ.lin := by rw [List.map_map, List.map_map]; rfl
  rw [List.length_map, hm]
  split
  · rfl
  · have := closestEdgeLoop_sim (σ := σ) (s.map SP.v) (List.range s.length) none
    rw [Option.map_none] at this
    rw [this, mapOk_bind, bind_mapOk]
    refine mapOk_congr fun o => ?_
    cases o <;> rfl

theorem epa2Loop_sim (hl : σ.Follows left left') (hr : σ.Follows right right') (tolerance : ℝ) : ∀ n s e,
    epa2Loop (tolerance * σ.k) left' right' n (s.map σ.sp) (EEdge.sim σ e) =
      (epa2Loop tolerance left right n s e).mapOk fun r => (r.1.map σ.sp, EEdge.sim σ r.2.1, r.2.2)
  | 0, _, _ => rfl
  | n + 1, s, e => by
    have hk := σ.pos
    unfold epa2Loop
    have h1 : (EEdge.sim σ e).normal = σ.turn e.normal * (1 : ℝ) := by ext <;> simp [EEdge.sim]
    have hm := mink_sim hl hr e.normal one_pos
    rw [← h1] at hm
    rw [hm, mapOk_bind, bind_mapOk]
    refine mapOk_congr fun p => ?_
    have hd : (σ.sp p).v.dot (EEdge.sim σ e).normal = p.v.dot e.normal * σ.k := by
      show (σ.lin p.v).dot (σ.turn e.normal) = _
      rw [← σ.dot_turn p.v e.normal]; simp only [Sim2.lin, V2.dot, V2.mul_x, V2.mul_y]; ring
    have hdist : (EEdge.sim σ e).distance = e.distance * σ.k := rfl
    have hi : (EEdge.sim σ e).index = e.index := rfl
    dsimp only
    rw [hd, hdist, hi, ← sub_mul]
    by_cases h : p.v.dot e.normal - e.distance < tolerance
    · rw [if_pos h, if_pos ((lt_iff_mul hk).mpr h)]; rfl
    · rw [if_neg h, if_neg (fun h' => h ((lt_iff_mul hk).mp h'))]
      have he : (s.map σ.sp).take e.index ++ σ.sp p :: (s.map σ.sp).drop e.index = (s.take e.index ++ p :: s.drop e.index).map σ.sp := by
        simp [List.map_append, List.map_take, List.map_drop]
      rw [he, closestEdge_sim, mapOk_bind, bind_mapOk]
      refine mapOk_congr fun o => ?_
      rw [ofOption_map, mapOk_bind, bind_mapOk]
      refine mapOk_congr fun e' => ?_
      exact epa2Loop_sim hl hr tolerance n _ _

theorem epaPoint2_sim (s : List (SP (V2 ℝ))) (e : EEdge) : epaPoint2 (s.map σ.sp) (EEdge.sim σ e) = (epaPoint2 s e).mapOk σ.at := by
  have hk := σ.pos
  unfold epaPoint2
  have hi : (EEdge.sim σ e).index = e.index := rfl
  rw [hi, List.getElem?_map, ofOption_map, mapOk_bind, bind_mapOk]
  refine mapOk_congr fun b => ?_
  have hv : ∀ p : SP (V2 ℝ), (σ.sp p).v = σ.lin p.v := fun _ => rfl
  have hA : ∀ p : SP (V2 ℝ), (σ.sp p).supA = σ.at p.supA := fun _ => rfl
  dsimp only
  rw [List.length_map, List.getElem?_map, ofOption_map, List.getElem?_map, ofOption_map]
  have key : ∀ x : Res (SP (V2 ℝ)), (do
      let a ← x.mapOk σ.sp
      if (-a.v).dot ((σ.sp b).v - a.v) / ((σ.sp b).v - a.v).dot ((σ.sp b).v - a.v) < 0 then pure a.supA
      else if (-a.v).dot ((σ.sp b).v - a.v) / ((σ.sp b).v - a.v).dot ((σ.sp b).v - a.v) > 1 then pure (σ.sp b).supA
      else pure (a.supA + ((σ.sp b).supA - a.supA) * ((-a.v).dot ((σ.sp b).v - a.v) / ((σ.sp b).v - a.v).dot ((σ.sp b).v - a.v))) : Res (V2 ℝ)) =
      (do
      let a ← x
      if (-a.v).dot (b.v - a.v) / (b.v - a.v).dot (b.v - a.v) < 0 then pure a.supA
      else if (-a.v).dot (b.v - a.v) / (b.v - a.v).dot (b.v - a.v) > 1 then pure b.supA
      else pure (a.supA + (b.supA - a.supA) * ((-a.v).dot (b.v - a.v) / (b.v - a.v).dot (b.v - a.v))) : Res (V2 ℝ)).mapOk σ.at := by
    intro x
    rw [mapOk_bind, bind_mapOk]
    refine mapOk_congr fun a => ?_
    simp only [hv, hA]
    rw [← σ.lin_sub, ← σ.lin_neg, σ.dot_lin, σ.dot_lin, mul_div_mul_right _ _ (by positivity)]
    split
    · rfl
    · split
      · rfl
      · show Res.ok _ = Res.ok _
        congr 1
        ext <;> simp [Sim2.at, Sim2.lin, Sim2.turn] <;> ring
  split
  · exact key _
  · exact key _

/-- The contact of the changed scene. -/
def Contact.sim (σ : Sim2) (c : Contact (V2 ℝ) ℝ) : Contact (V2 ℝ) ℝ := { c with normal := σ.turn c.normal, depth := c.depth * σ.k, point := σ.at c.point }

theorem epa2_sim (hl : σ.Follows left left') (hr : σ.Follows right right') (tolerance : ℝ) (m : Nat) (s : List (SP (V2 ℝ))) :
    epa2 (tolerance * σ.k) m left' right' (s.map σ.sp) = (epa2 tolerance m left right s).mapOk (Option.map (Contact.sim σ)) := by
  unfold epa2 epa2Run
  rw [closestEdge_sim, bind_mapOk]
  cases closestEdge s with
  | panic => rfl
  | timeout => rfl
  | ok o =>
    cases o with
    | none => rfl
    | some e =>
      simp only [Res.bind_ok, Res.mapOk, Option.map_some]
      rw [epa2Loop_sim hl hr, mapOk_bind]
      cases epa2Loop tolerance left right m s e with
      | panic => rfl
      | timeout => rfl
      | ok r =>
        simp only [Res.bind_ok]
        rw [epaPoint2_sim, mapOk_bind]
        cases epaPoint2 r.1 r.2.1 <;> rfl

/-! ## Primitives -/

theorem placed_point (D : Dec2 ℝ) (p : V2 ℝ) : (σ.placed D).tr.point p = σ.at (D.tr.point p) := by
  simp only [Dec2.tr, Sim2.placed, M2.apply]
  ext <;> simp [Sim2.at, Sim2.lin, Sim2.turn] <;> ring

theorem placed_inv (D : Dec2 ℝ) (d : V2 ℝ) (c : ℝ) : (σ.placed D).tr.invVector (σ.turn d * c) = (D.tr.invVector d).map (fun v => (v * (c / σ.k) : V2 ℝ)) := by
  have hk := σ.pos.ne'
  have hu := σ.unit
  have e1 : ∀ (D : Dec2 ℝ) (v : V2 ℝ), D.tr.invVector v = if D.scale = 0 then none else some (D.rot.transpose.apply (v / D.scale)) := fun _ _ => rfl
  have e2 : (σ.placed D).scale = D.scale * σ.k := rfl
  have e3 : (σ.placed D).rot = ⟨σ.turn D.rot.c0, σ.turn D.rot.c1⟩ := rfl
  rw [e1, e1]
  by_cases h : D.scale = 0
  · rw [if_pos h, if_pos (by rw [e2, h, zero_mul])]; rfl
  · have h2 : D.scale * σ.k ≠ 0 := mul_ne_zero h hk
    rw [if_neg h, if_neg (by rw [e2]; exact h2), Option.map_some, e2, e3]
    congr 1
    ext
    · simp only [M2.transpose, M2.apply, Sim2.turn, V2.add_x, V2.mul_x, V2.mul_y, V2.div_x, V2.div_y]
      field_simp
      linear_combination (c * (D.rot.c0.x * d.x + D.rot.c0.y * d.y)) * hu
    · simp only [M2.transpose, M2.apply, Sim2.turn, V2.add_y, V2.mul_x, V2.mul_y, V2.div_x, V2.div_y]
      field_simp
      linear_combination (c * (D.rot.c1.x * d.x + D.rot.c1.y * d.y)) * hu

theorem local_placed (D : Dec2 ℝ) {loc : V2 ℝ → Res (V2 ℝ)} (hh : ∀ (e : V2 ℝ) (c : ℝ), 0 < c → loc (e * c) = loc e) (d : V2 ℝ) {c : ℝ} (hc : 0 < c) :
    (do let e ← Res.ofOption ((σ.placed D).tr.invVector (σ.turn d * c)); let p ← loc e; return (σ.placed D).tr.point p : Res (V2 ℝ)) =
      (do let e ← Res.ofOption (D.tr.invVector d); let p ← loc e; return D.tr.point p : Res (V2 ℝ)).mapOk σ.at := by
  have hk := σ.pos
  rw [placed_inv, ofOption_map, mapOk_bind, bind_mapOk]
  refine mapOk_congr fun e => ?_
  rw [hh e _ (by positivity), bind_mapOk]
  refine mapOk_congr fun p => ?_
  rw [placed_point]; rfl

theorem dot_mul_right (v e : V2 ℝ) (c : ℝ) : v.dot (e * c) = v.dot e * c := by simp only [V2.dot, V2.mul_x, V2.mul_y]; ring

theorem dotIndex_hom (vs : List (V2 ℝ)) (i : Int) (d : V2 ℝ) (c : ℝ) : dotIndex vs i (d * c) = (dotIndex vs i d).mapOk (· * c) := by
  unfold dotIndex
  dsimp only
  have key : ∀ x : Res (V2 ℝ), (do let v ← x; pure (v.dot (d * c)) : Res ℝ) = (do let v ← x; pure (v.dot d) : Res ℝ).mapOk (· * c) := by
    intro x
    rw [bind_mapOk]
    refine mapOk_congr fun v => ?_
    rw [dot_mul_right]; rfl
  split
  · exact key _
  · split
    · exact key _
    · split
      · exact key _
      · exact key _

theorem climbLoop_hom (vs : List (V2 ℝ)) (d : V2 ℝ) {c : ℝ} (hc : 0 < c) (start add : Int) : ∀ fuel i prev cur,
    climbLoop vs (d * c) start add fuel i (prev * c) (cur * c) = climbLoop vs d start add fuel i prev cur
  | 0, _, _, _ => rfl
  | fuel + 1, i, prev, cur => by
    unfold climbLoop
    split
    · rfl
    · rw [dotIndex_hom, mapOk_bind]
      refine mapOk_congr fun next => ?_
      have e1 : (cur * c > prev * c ∧ cur * c > next * c) ↔ (cur > prev ∧ cur > next) := and_congr (lt_iff_mul hc) (lt_iff_mul hc)
      by_cases h : cur > prev ∧ cur > next
      · rw [if_pos h, if_pos (e1.mpr h)]
      · rw [if_neg h, if_neg (fun h' => h (e1.mp h'))]
        exact climbLoop_hom vs d hc start add fuel _ _ _

theorem climb_hom (vs : List (V2 ℝ)) (e : V2 ℝ) {c : ℝ} (hc : 0 < c) : climb vs (e * c) = climb vs e := by
  unfold climb
  refine mapOk_congr fun v0 => ?_
  dsimp only
  have e0 : v0.dot (e * c) < 0 ↔ v0.dot e < 0 := by
    rw [dot_mul_right]
    have := lt_iff_mul (x := v0.dot e) (y := 0) hc
    rw [zero_mul] at this
    exact this
  have e1 : (if v0.dot (e * c) < 0 then ((vs.length / 2 : Nat) : Int) else 0) = (if v0.dot e < 0 then ((vs.length / 2 : Nat) : Int) else 0) := by
    by_cases h : v0.dot e < 0
    · rw [if_pos h, if_pos (e0.mpr h)]
    · rw [if_neg h, if_neg (fun h' => h (e0.mp h'))]
  rw [e1]
  generalize (if v0.dot e < 0 then ((vs.length / 2 : Nat) : Int) else 0) = start
  have key : ∀ x : Res ℝ, (do
      let maxDot ← x.mapOk (· * c)
      let left ← dotIndex vs (start - 1) (e * c)
      let right ← dotIndex vs (start + 1) (e * c)
      if start = 0 ∧ maxDot > left ∧ maxDot > right then pure v0
      else
        climbLoop vs (e * c) start (if left > maxDot ∧ left > right then -1 else 1) (vs.length + 1)
          (wrapIndex vs.length (start + (if left > maxDot ∧ left > right then -1 else 1))) (if left > maxDot ∧ left > right then right else left) maxDot : Res (V2 ℝ)) =
      (do
      let maxDot ← x
      let left ← dotIndex vs (start - 1) e
      let right ← dotIndex vs (start + 1) e
      if start = 0 ∧ maxDot > left ∧ maxDot > right then pure v0
      else
        climbLoop vs e start (if left > maxDot ∧ left > right then -1 else 1) (vs.length + 1)
          (wrapIndex vs.length (start + (if left > maxDot ∧ left > right then -1 else 1))) (if left > maxDot ∧ left > right then right else left) maxDot : Res (V2 ℝ)) := by
    intro x
    rw [mapOk_bind]
    refine mapOk_congr fun m => ?_
    rw [dotIndex_hom, mapOk_bind]
    refine mapOk_congr fun l => ?_
    rw [dotIndex_hom, mapOk_bind]
    refine mapOk_congr fun r => ?_
    have i1 : m * c > l * c ↔ m > l := lt_iff_mul hc
    have i2 : m * c > r * c ↔ m > r := lt_iff_mul hc
    have i3 : l * c > m * c ↔ l > m := lt_iff_mul hc
    have i4 : l * c > r * c ↔ l > r := lt_iff_mul hc
    simp only [i1, i2, i3, i4]
    split
    · rfl
    · by_cases h : l > m ∧ l > r
      · simp only [if_pos h]; exact climbLoop_hom vs e hc _ _ _ _ _ _
      · simp only [if_neg h]; exact climbLoop_hom vs e hc _ _ _ _ _ _
  by_cases h : v0.dot e < 0
  · simp only [if_pos h, if_pos (e0.mpr h), dotIndex_hom vs start]
    exact key _
  · have h' : ¬ v0.dot (e * c) < 0 := fun h' => h (e0.mp h')
    simp only [if_neg h, if_neg h']
    rw [dot_mul_right]
    exact key (.ok (v0.dot e))

theorem prim2_follows (s : Prim2) (D : Dec2 ℝ) : σ.Follows (s.supportPoint D.tr) (s.supportPoint (σ.placed D).tr) := by
  intro d c hc
  have hmax : ∀ vs : List (V2 ℝ), support (maxPoint2 vs) (σ.placed D).tr (σ.turn d * c) = (support (maxPoint2 vs) D.tr d).mapOk σ.at := fun vs =>
    local_placed D (loc := fun e => .ok (maxPoint2 vs e)) (fun e c hc => by rw [maxPoint2_scale vs e hc]) d hc
  cases s with
  | particle => show Res.ok _ = Res.ok _; rw [placed_point]
  | line l =>
    refine local_placed D (loc := fun e => .ok (lineLocal l e)) (fun e c hc => ?_) d hc
    unfold lineLocal
    have : (e * c).dot (l.dest - l.origin) = e.dot (l.dest - l.origin) * c := by simp only [V2.dot, V2.mul_x, V2.mul_y]; ring
    rw [this]
    by_cases h : e.dot (l.dest - l.origin) ≥ 0
    · rw [if_pos h, if_pos (by positivity)]
    · rw [if_neg h, if_neg (by push Not at h ⊢; exact mul_neg_of_neg_of_pos h hc)]
  | circle s =>
    have hr : ∀ (D : Dec2 ℝ) (d : V2 ℝ), supportRound (fun e => e.normalizeTo s.radius) D.tr d =
        (do let e ← Res.ofOption (D.tr.invVector d); let p ← (if e = 0 then nanPoint else .ok (e.normalizeTo s.radius)); return D.tr.point p : Res (V2 ℝ)) := by
      intro D d
      unfold supportRound
      cases D.tr.invVector d with
      | none => rfl
      | some e =>
        by_cases he : e = 0
        · simp [he, nanPoint]
        · simp [he]
    show supportRound _ _ _ = (supportRound _ _ _).mapOk _
    rw [hr, hr]
    refine local_placed D (loc := fun e => if e = 0 then nanPoint else .ok (e.normalizeTo s.radius)) (fun e c hc => ?_) d hc
    have h0 : e * c = 0 ↔ e = 0 := by
      constructor
      · intro h
        have hx := congrArg V2.x h
        have hy := congrArg V2.y h
        simp [hc.ne'] at hx hy
        ext <;> simp [hx, hy]
      · rintro rfl; ext <;> simp
    by_cases h : e = 0
    · rw [if_pos h, if_pos (h0.mpr h)]
    · rw [if_neg h, if_neg (fun h' => h (h0.mp h'))]
      congr 1
      unfold V2.normalizeTo
      rw [V2.norm_smul, abs_of_pos hc]
      have := (V2.norm_pos h).ne'
      ext <;> simp <;> field_simp
  | rectangle s => exact hmax _
  | square s => exact hmax _
  | polygon s =>
    show s.supportPoint _ _ = (s.supportPoint _ _).mapOk _
    unfold Polygon.supportPoint
    split
    · exact hmax _
    · exact local_placed D (loc := climb s.vertices) (fun e c hc => climb_hom _ _ hc) d hc

/-- **C96, collision test.** Turning, scaling and moving both shapes together does not change the answer of the 2D collision test: any two primitives of the library in any
placements, provided these put the shapes at different points or the scene is not turned. (For two shapes with the same origin the search starts in the fixed direction `(1, 1)`.) -/
theorem c96_collision_2d (σ : Sim2) (s t : Prim2) (D E : Dec2 ℝ) (h : D.tr.point 0 ≠ E.tr.point 0 ∨ (σ.a = 1 ∧ σ.b = 0)) (n : Nat) :
    ∀ epa epa' : List (SP (V2 ℝ)) → Res (Option (Contact (V2 ℝ) ℝ)),
    gjkIntersection reduce2 n epa' .collisionOnly (s.supportPoint (σ.placed D).tr) (t.supportPoint (σ.placed E).tr) ((σ.placed D).tr.point 0) ((σ.placed E).tr.point 0) =
      gjkIntersection reduce2 n epa .collisionOnly (s.supportPoint D.tr) (t.supportPoint E.tr) (D.tr.point 0) (E.tr.point 0) := by
  intro epa epa'
  unfold gjkIntersection
  rw [placed_point, placed_point, gjkIntersect_sim (prim2_follows s D) (prim2_follows t E) n h, mapOk_bind]
  refine mapOk_congr fun o => ?_
  cases o <;> rfl

/-- **C96, full resolution**: the normal turns, the depth scales, the contact point goes with the scene. The tolerance is a length and scales too. -/
theorem c96_full_2d (σ : Sim2) (s t : Prim2) (D E : Dec2 ℝ) (h : D.tr.point 0 ≠ E.tr.point 0 ∨ (σ.a = 1 ∧ σ.b = 0)) (tolerance : ℝ) (n m : Nat) :
    gjkIntersection reduce2 n (epa2 (tolerance * σ.k) m (s.supportPoint (σ.placed D).tr) (t.supportPoint (σ.placed E).tr)) .fullResolution (s.supportPoint (σ.placed D).tr)
        (t.supportPoint (σ.placed E).tr) ((σ.placed D).tr.point 0) ((σ.placed E).tr.point 0) =
      (gjkIntersection reduce2 n (epa2 tolerance m (s.supportPoint D.tr) (t.supportPoint E.tr)) .fullResolution (s.supportPoint D.tr) (t.supportPoint E.tr)
        (D.tr.point 0) (E.tr.point 0)).mapOk (Option.map fun c => { c with normal := σ.turn c.normal, depth := c.depth * σ.k, point := σ.at c.point }) := by
  unfold gjkIntersection
  rw [placed_point, placed_point, gjkIntersect_sim (prim2_follows s D) (prim2_follows t E) n h, mapOk_bind, bind_mapOk]
  refine mapOk_congr fun o => ?_
  cases o with
  | none => rfl
  | some x => exact epa2_sim (prim2_follows s D) (prim2_follows t E) tolerance m x

/-- **C96, distance**: it scales. The tolerance is compared with products of lengths, so it scales with the square. -/
theorem c96_distance_2d (σ : Sim2) (s t : Prim2) (D E : Dec2 ℝ) (h : D.tr.point 0 ≠ E.tr.point 0 ∨ (σ.a = 1 ∧ σ.b = 0)) (tolerance : ℝ) (n : Nat) (nan : SP (V2 ℝ)) :
    gjkDistance closest2 (tolerance * (σ.k * σ.k)) n (s.supportPoint (σ.placed D).tr) (t.supportPoint (σ.placed E).tr) (.ok ⟨σ.lin nan.v, σ.at nan.supA, σ.at nan.supB⟩)
        ((σ.placed D).tr.point 0) ((σ.placed E).tr.point 0) =
      (gjkDistance closest2 tolerance n (s.supportPoint D.tr) (t.supportPoint E.tr) (.ok nan) (D.tr.point 0) (E.tr.point 0)).mapOk (Option.map (· * σ.k)) := by
  rw [placed_point, placed_point]
  exact gjkDistance_sim (prim2_follows s D) (prim2_follows t E) tolerance n (.ok nan) h

/-- **C96, time of impact**: the time is the same, the normal turns, the depth scales; the tolerance scales with the square. (The reported point does not follow: C69.) -/
theorem c96_toi_2d (σ : Sim2) (s t : Prim2) (D D' E E' : Dec2 ℝ) (tolerance : ℝ) (fuel : Nat) (place place' : ℝ → V2 ℝ → V2 ℝ) :
    (gjkToi closest2 V2.normalize (tolerance * (σ.k * σ.k)) fuel (s.supportPoint (σ.placed D).tr) (t.supportPoint (σ.placed E).tr) ((σ.placed D).tr.point 0)
        ((σ.placed D').tr.point 0) ((σ.placed E).tr.point 0) ((σ.placed E').tr.point 0) place').mapOk (Option.map fun c => (c.toi, c.normal, c.depth)) =
      (gjkToi closest2 V2.normalize tolerance fuel (s.supportPoint D.tr) (t.supportPoint E.tr) (D.tr.point 0) (D'.tr.point 0) (E.tr.point 0) (E'.tr.point 0) place).mapOk
        (Option.map fun c => (c.toi, σ.turn c.normal, c.depth * σ.k)) := by
  rw [placed_point, placed_point, placed_point, placed_point]
  exact gjkToi_sim (prim2_follows s D) (prim2_follows t E) tolerance fuel _ _ _ _ _ _

/-- The placement of the changed scene is the placement followed by the similarity, and it is an orthogonal one if the first is. -/
theorem placed_ok (σ : Sim2) (D : Dec2 ℝ) (hD : D.rot.Orthogonal) (hs : D.scale ≠ 0) :
    (∀ p, (σ.placed D).tr.point p = σ.at (D.tr.point p)) ∧ (σ.placed D).rot.Orthogonal ∧ (σ.placed D).scale ≠ 0 :=
  ⟨placed_point D, ⟨by rw [← hD.1]; exact σ.dot_turn _ _, by rw [← hD.2.1]; exact σ.dot_turn _ _, by rw [← hD.2.2]; exact σ.dot_turn _ _⟩, mul_ne_zero hs σ.pos.ne'⟩
/-- The same origin and a turn: the search starts in a direction that does not turn with the scene, and may end differently, but for shapes with vertices only if they just touch:
if one scene reports a collision and the other none, the shapes share a point and a line separates them. -/
theorem c96_centred_2d (σ : Sim2) (s t : Prim2) (hs : s.Ok) (ht : t.Ok) (hsc : ∀ c, s ≠ .circle c) (htc : ∀ c, t ≠ .circle c) (D E : Dec2 ℝ) (hD : D.rot.Orthogonal) (hE : E.rot.Orthogonal)
    (hDs : D.scale ≠ 0) (hEs : E.scale ≠ 0) :
    ∃ o o', gjkIntersect reduce2 100 (s.supportPoint D.tr) (t.supportPoint E.tr) (D.tr.point 0) (E.tr.point 0) = .ok o ∧
      gjkIntersect reduce2 100 (s.supportPoint (σ.placed D).tr) (t.supportPoint (σ.placed E).tr) ((σ.placed D).tr.point 0) ((σ.placed E).tr.point 0) = .ok o' ∧
      (o.isSome ≠ o'.isSome → (∃ p, Image D.tr s.Points p ∧ Image E.tr t.Points p) ∧ Separated2 (Image D.tr s.Points) (Image E.tr t.Points)) := by
  obtain ⟨pD, qD, rD⟩ := placed_ok σ D hD hDs
  obtain ⟨pE, qE, rE⟩ := placed_ok σ E hE hEs
  obtain ⟨o, h1, h2, h3⟩ := c65_prim2 s t hs ht hsc htc D E hD hE hDs hEs
  obtain ⟨o', g1, g2, g3⟩ := c65_prim2 s t hs ht hsc htc (σ.placed D) (σ.placed E) qD qE rD rE
  refine ⟨o, o', h1, g1, fun hne => ?_⟩
  cases o with
  | none =>
    cases o' with
    | none => exact absurd rfl hne
    | some x =>
      obtain ⟨w, ⟨p, hp, e1⟩, ⟨q, hq, e2⟩⟩ := g2 rfl
      refine ⟨⟨D.tr.point p, ⟨p, hp, rfl⟩, ⟨q, hq, ?_⟩⟩, h3 rfl⟩
      have e : σ.at (D.tr.point p) - σ.at (E.tr.point q) = 0 := by
        rw [← pD, ← pE, ← e1, ← e2]; ext <;> simp
      rw [σ.at_sub, σ.lin_eq_zero] at e
      have e3 := congrArg V2.x e
      have e4 := congrArg V2.y e
      simp at e3 e4
      ext <;> linarith
  | some x =>
    cases o' with
    | none =>
      obtain ⟨d, hd, h⟩ := g3 rfl
      refine ⟨h2 rfl, ⟨σ.a * d.x + σ.b * d.y, -σ.b * d.x + σ.a * d.y⟩, ?_, ?_⟩
      · intro e
        apply hd
        have e3 := congrArg V2.x e
        have e4 := congrArg V2.y e
        simp at e3 e4
        have hu := σ.unit
        ext
        · simp; linear_combination (-d.x) * hu + σ.a * e3 - σ.b * e4
        · simp; linear_combination (-d.y) * hu + σ.b * e3 + σ.a * e4
      · rintro _ _ ⟨p, hp, rfl⟩ ⟨q, hq, rfl⟩
        have h4 := h _ _ ⟨p, hp, rfl⟩ ⟨q, hq, rfl⟩
        rw [pD, pE] at h4
        simp only [Sim2.at, Sim2.lin, Sim2.turn, V2.dot, V2.add_x, V2.add_y, V2.mul_x, V2.mul_y] at h4 ⊢
        have hk := σ.pos
        by_contra hc
        push Not at hc
        have := mul_lt_mul_of_pos_right hc hk
        linarith
    | some y => exact absurd rfl hne

/-- A scene turned by the angle of the 3-4-5 triangle, made twice as large, and shifted: the circle and the rectangle of `c92_example` still collide. -/
theorem c96_example (n : Nat) : ∀ σ : Sim2, σ.a = 3 / 5 → σ.b = 4 / 5 → σ.k = 2 → σ.t = ⟨1, 1⟩ → ∀ epa, ∃ c,
    gjkIntersection reduce2 (n + 2) epa .collisionOnly ((Prim2.circle ⟨1⟩).supportPoint (σ.placed (shift2 0 0)).tr)
      ((Prim2.rectangle (Rectangle.new (14 / 5) (7 / 5))).supportPoint (σ.placed (shift2 (3 / 5) (4 / 5))).tr) ((σ.placed (shift2 0 0)).tr.point 0)
      ((σ.placed (shift2 (3 / 5) (4 / 5))).tr.point 0) = .ok (some c) := by
  intro σ _ _ _ _ epa
  rw [c96_collision_2d σ _ _ _ _ (Or.inl (by
    intro e
    have e1 := congrArg V2.x e
    norm_num [shift2, Dec2.tr, M2.apply] at e1)) (n + 2) epa epa]
  obtain ⟨a, b, c, h, -⟩ := c92_example n
  unfold gjkIntersection
  rw [h]
  exact ⟨_, rfl⟩

/-- Such a similarity exists. -/
def Sim2.sample : Sim2 := ⟨3 / 5, 4 / 5, 2, ⟨1, 1⟩, by norm_num, by norm_num⟩
end
end Verif.Minkowski
