import Verif.Minkowski.Epa3Shapes
import Verif.Minkowski.Toi2Total
import Verif.Minkowski.Epa2Total
/-!
# Moving both shapes by the same vector (C88)
-/
namespace Verif.Minkowski
open Verif Geom Primitive
set_option linter.unusedSectionVars false

/-- Apply a function to the value of an answer; panics and timeouts stay. -/
def _root_.Verif.Res.mapOk {α β : Type} (f : α → β) : Res α → Res β
  | .ok a => .ok (f a)
  | .panic => .panic
  | .timeout => .timeout

theorem mapOk_bind {α β γ : Type} (f : α → β) (x : Res α) (k : β → Res γ) : (do let a ← x.mapOk f; k a) = (do let a ← x; k (f a)) := by
  cases x <;> rfl
theorem bind_mapOk {α β γ : Type} (f : β → γ) (x : Res α) (k : α → Res β) : (do let a ← x; k a : Res β).mapOk f = (do let a ← x; (k a).mapOk f) := by
  cases x <;> rfl
theorem mapOk_congr {α β : Type} {f g : α → Res β} {x : Res α} (h : ∀ a, f a = g a) : (do let a ← x; f a) = (do let a ← x; g a) := by
  cases x <;> simp [h]
theorem ofOption_map {α β : Type} (f : α → β) (o : Option α) : Res.ofOption (o.map f) = (Res.ofOption o).mapOk f := by
  cases o <;> rfl

/-- The support points of both shapes moved by `f`, the difference unchanged. -/
def SP.move {V : Type} (f : V → V) (p : SP V) : SP V := ⟨p.v, f p.supA, f p.supB⟩

/-- The outcome of GJK with the support points moved. -/
def Out.move {V : Type} (f : V → V) : Out V → Out V
  | .hit s => .hit (s.map (SP.move f))
  | .miss => .miss
  | .exhausted => .exhausted

/-- A contact with its point moved, everything else unchanged. -/
def Contact.move {V K : Type} (f : V → V) (c : Contact V K) : Contact V K := { c with point := f c.point }

section generic
variable {V K : Type} [Neg V] [Sub V] [Zero V] [DecidableEq V] [Zero K] [LinearOrder K] [Inner V K]

theorem mink_move {f : V → V} (hf : ∀ a b, f a - f b = a - b) {left right left' right' : V → Res V} (hl : ∀ d, left' d = (left d).mapOk f)
    (hr : ∀ d, right' d = (right d).mapOk f) (d : V) : SP.fromMinkowski left' right' d = (SP.fromMinkowski left right d).mapOk (SP.move f) := by
  unfold SP.fromMinkowski
  rw [hl, hr]
  cases left d with
  | ok a =>
    cases right (-d) with
    | ok b =>
      show Res.ok _ = Res.ok _
      rw [hf]; rfl
    | panic => rfl
    | timeout => rfl
  | panic => rfl
  | timeout => rfl

/-- `reduce` looks only at the differences. -/
def Blind (f : V → V) (reduce : List (SP V) → V → Bool × List (SP V) × V) : Prop :=
  ∀ s d, reduce (s.map (SP.move f)) d = ((reduce s d).1, (reduce s d).2.1.map (SP.move f), (reduce s d).2.2)

theorem gjkLoop_move {f : V → V} (hf : ∀ a b, f a - f b = a - b) {left right left' right' : V → Res V} (hl : ∀ d, left' d = (left d).mapOk f)
    (hr : ∀ d, right' d = (right d).mapOk f) {reduce : List (SP V) → V → Bool × List (SP V) × V} (hb : Blind f reduce) :
    ∀ n s d, gjkLoop reduce left' right' n (s.map (SP.move f)) d = (gjkLoop reduce left right n s d).mapOk (Out.move f)
  | 0, _, _ => rfl
  | n + 1, s, d => by
    unfold gjkLoop
    rw [mink_move hf hl hr, mapOk_bind, bind_mapOk]
    refine mapOk_congr fun a => ?_
    show (if Inner.dot a.v d ≤ 0 then _ else _) = _
    by_cases h : Inner.dot a.v d ≤ 0
    · rw [if_pos h, if_pos h]; rfl
    · rw [if_neg h, if_neg h]
      have e : s.map (SP.move f) ++ [SP.move f a] = (s ++ [a]).map (SP.move f) := by simp
      rw [e, hb]
      dsimp only
      by_cases h2 : (reduce (s ++ [a]) d).1 = true
      · rw [if_pos h2, if_pos h2]; rfl
      · rw [if_neg h2, if_neg h2]
        exact gjkLoop_move hf hl hr hb n _ _

theorem gjkRun_move {f : V → V} (hf : ∀ a b, f a - f b = a - b) {left right left' right' : V → Res V} (hl : ∀ d, left' d = (left d).mapOk f)
    (hr : ∀ d, right' d = (right d).mapOk f) {reduce : List (SP V) → V → Bool × List (SP V) × V} (hb : Blind f reduce) (n : Nat) (lp rp : V) :
    gjkRun reduce n left' right' (f lp) (f rp) = (gjkRun reduce n left right lp rp).mapOk (Out.move f) := by
  unfold gjkRun
  have hd : firstDirection (f lp) (f rp) = firstDirection lp rp := by unfold firstDirection; rw [hf]
  rw [hd]
  dsimp only
  rw [mink_move hf hl hr, mapOk_bind, bind_mapOk]
  refine mapOk_congr fun a => ?_
  have hv : (SP.move f a).v = a.v := rfl
  rw [hv]
  by_cases h : Inner.dot a.v (firstDirection lp rp) ≤ 0
  · rw [if_pos h, if_pos h]; rfl
  · rw [if_neg h, if_neg h]
    exact gjkLoop_move hf hl hr hb n [a] _

theorem gjkIntersect_move {f : V → V} (hf : ∀ a b, f a - f b = a - b) {left right left' right' : V → Res V} (hl : ∀ d, left' d = (left d).mapOk f)
    (hr : ∀ d, right' d = (right d).mapOk f) {reduce : List (SP V) → V → Bool × List (SP V) × V} (hb : Blind f reduce) (n : Nat) (lp rp : V) :
    gjkIntersect reduce n left' right' (f lp) (f rp) = (gjkIntersect reduce n left right lp rp).mapOk (Option.map (List.map (SP.move f))) := by
  unfold gjkIntersect
  rw [gjkRun_move hf hl hr hb, mapOk_bind, bind_mapOk]
  refine mapOk_congr fun a => ?_
  cases a <;> rfl
end generic

section reduce
variable {K : Type} [Field K] [LinearOrder K] [IsStrictOrderedRing K]
theorem reduce2_blind (f : V2 K → V2 K) : Blind f reduce2 := by
  intro s d
  match s with
  | [] => rfl
  | [_] => rfl
  | [s0, s1] => rfl
  | [s0, s1, s2] =>
    simp only [List.map_cons, List.map_nil, reduce2, SP.move]
    split
    · rfl
    · split <;> rfl
  | _ :: _ :: _ :: _ :: _ => rfl

theorem checkSide_move (f : V3 K → V3 K) (abc ab ac ao : V3 K) (s0 s1 s2 : SP (V3 K)) (above ig : Bool) :
    checkSide abc ab ac ao (SP.move f s0) (SP.move f s1) (SP.move f s2) above ig =
      ((checkSide abc ab ac ao s0 s1 s2 above ig).1.map (SP.move f), (checkSide abc ab ac ao s0 s1 s2 above ig).2) := by
  unfold checkSide
  dsimp only
  split
  · rfl
  · split
    · rfl
    · split <;> rfl

theorem reduce3_blind (f : V3 K → V3 K) : Blind f reduce3 := by
  intro s d
  match s with
  | [] => rfl
  | [_] => rfl
  | [s0, s1] => rfl
  | [s0, s1, s2] =>
    show (false, (checkSide _ _ _ _ _ _ _ _ _).1, (checkSide _ _ _ _ _ _ _ _ _).2) = _
    rw [checkSide_move]
    rfl
  | [s0, s1, s2, s3] =>
    simp only [List.map_cons, List.map_nil, reduce3]
    have hv : ∀ p : SP (V3 K), (SP.move f p).v = p.v := fun _ => rfl
    simp only [hv]
    split
    · rw [checkSide_move]
    · split
      · rw [checkSide_move]
      · split <;> rfl
  | _ :: _ :: _ :: _ :: _ :: _ => rfl
end reduce

noncomputable section
open Classical

section real
variable {V : Type} [Neg V] [Sub V] [Zero V] [HMul V ℝ V] [Inner V ℝ]

/-- `closest` looks only at the differences. -/
def Blind' (f : V → V) (closest : List (SP V) → Res (Option V × List (SP V))) : Prop :=
  ∀ s, closest (s.map (SP.move f)) = (closest s).mapOk fun c => (c.1, c.2.map (SP.move f))

theorem distanceLoop_move {f : V → V} (hf : ∀ a b, f a - f b = a - b) {left right left' right' : V → Res V} (hl : ∀ d, left' d = (left d).mapOk f)
    (hr : ∀ d, right' d = (right d).mapOk f) {closest : List (SP V) → Res (Option V × List (SP V))} (hb : Blind' f closest) (tolerance : ℝ) (nan : Res (SP V)) :
    ∀ n s, distanceLoop closest tolerance left' right' (nan.mapOk (SP.move f)) n (s.map (SP.move f)) = distanceLoop closest tolerance left right nan n s
  | 0, _ => rfl
  | n + 1, s => by
    unfold distanceLoop
    rw [hb, mapOk_bind]
    refine mapOk_congr fun c => ?_
    obtain ⟨c1, c2⟩ := c
    dsimp only
    have e : ∀ a, c2.map (SP.move f) ++ [SP.move f a] = (c2 ++ [a]).map (SP.move f) := by intro a; simp
    cases c1 with
    | none =>
      dsimp only
      rw [mapOk_bind]
      refine mapOk_congr fun a => ?_
      rw [e]
      exact distanceLoop_move hf hl hr hb tolerance nan n _
    | some v =>
      dsimp only
      by_cases h0 : v = 0
      · rw [if_pos h0, if_pos h0]
      · rw [if_neg h0, if_neg h0, mink_move hf hl hr, mapOk_bind]
        refine mapOk_congr fun a => ?_
        rw [List.getElem?_map, ofOption_map, mapOk_bind]
        refine mapOk_congr fun s0 => ?_
        show (if Inner.dot a.v _ - Inner.dot s0.v _ < tolerance then _ else _) = _
        by_cases h1 : Inner.dot a.v (-v) - Inner.dot s0.v (-v) < tolerance
        · rw [if_pos h1, if_pos h1]
        · rw [if_neg h1, if_neg h1, e]
          exact distanceLoop_move hf hl hr hb tolerance nan n _

theorem gjkDistance_move {f : V → V} (hf : ∀ a b, f a - f b = a - b) {left right left' right' : V → Res V} (hl : ∀ d, left' d = (left d).mapOk f)
    (hr : ∀ d, right' d = (right d).mapOk f) {closest : List (SP V) → Res (Option V × List (SP V))} (hb : Blind' f closest) (tolerance : ℝ) (n : Nat) (nan : Res (SP V)) (lp rp : V) :
    gjkDistance closest tolerance n left' right' (nan.mapOk (SP.move f)) (f lp) (f rp) = gjkDistance closest tolerance n left right nan lp rp := by
  unfold gjkDistance
  have hd : firstDirection (f lp) (f rp) = firstDirection lp rp := by unfold firstDirection; rw [hf]
  rw [hd]
  dsimp only
  rw [mink_move hf hl hr, mapOk_bind]
  refine mapOk_congr fun a => ?_
  rw [mink_move hf hl hr, mapOk_bind]
  refine mapOk_congr fun b => ?_
  exact distanceLoop_move hf hl hr hb tolerance nan n [a, b]

theorem toiLoop_move {f : V → V} (hf : ∀ a b, f a - f b = a - b) {left right left' right' : V → Res V} (hl : ∀ d, left' d = (left d).mapOk f)
    (hr : ∀ d, right' d = (right d).mapOk f) {closest : List (SP V) → Res (Option V × List (SP V))} (hb : Blind' f closest) (tolerance : ℝ) (ray : V) :
    ∀ n s st, toiLoop closest tolerance left' right' ray n (s.map (SP.move f)) st = toiLoop closest tolerance left right ray n s st := by
  intro n
  induction n with
  | zero =>
    intro s st
    unfold toiLoop
    rfl
  | succ n ih =>
    intro s st
    unfold toiLoop
    by_cases h : Inner.dot st.v st.v > tolerance
    · rw [if_pos h, if_pos h]
      dsimp only
      rw [mink_move hf hl hr, mapOk_bind]
      refine mapOk_congr fun p => ?_
      have hv : (SP.move f p).v = p.v := rfl
      have hs : ∀ q, (SP.move f p).subPoint q = SP.move f (p.subPoint q) := fun _ => rfl
      rw [hv]
      by_cases h1 : Inner.dot st.v p.v > st.lambda * Inner.dot st.v ray
      · rw [if_pos h1, if_pos h1]
        by_cases h2 : Inner.dot st.v ray > 0
        · rw [if_pos h2, if_pos h2]
          by_cases h3 : Inner.dot st.v p.v / Inner.dot st.v ray > 1
          · rw [if_pos h3, if_pos h3]
          · rw [if_neg h3, if_neg h3, hs]
            have := hb [p.subPoint (ray * (Inner.dot st.v p.v / Inner.dot st.v ray))]
            simp only [List.map_cons, List.map_nil] at this
            rw [this, mapOk_bind]
            refine mapOk_congr fun c => ?_
            refine mapOk_congr fun v => ?_
            exact ih _ _
        · rw [if_neg h2, if_neg h2]
      · rw [if_neg h1, if_neg h1, hs]
        have e : s.map (SP.move f) ++ [SP.move f (p.subPoint st.rayOrigin)] = (s ++ [p.subPoint st.rayOrigin]).map (SP.move f) := by simp
        rw [e, hb, mapOk_bind]
        refine mapOk_congr fun c => ?_
        refine mapOk_congr fun v => ?_
        exact ih _ _
    · rw [if_neg h, if_neg h]

theorem gjkToi_move {f : V → V} (hf : ∀ a b, f a - f b = a - b) {left right left' right' : V → Res V} (hl : ∀ d, left' d = (left d).mapOk f)
    (hr : ∀ d, right' d = (right d).mapOk f) {closest : List (SP V) → Res (Option V × List (SP V))} (hb : Blind' f closest) (normalize : V → V) (tolerance : ℝ) (fuel : Nat)
    (lStart lEnd rStart rEnd : V) {place place' : ℝ → V → V} (hp : ∀ t x, place' t x = f (place t x)) :
    gjkToi closest normalize tolerance fuel left' right' (f lStart) (f lEnd) (f rStart) (f rEnd) place' =
      (gjkToi closest normalize tolerance fuel left right lStart lEnd rStart rEnd place).mapOk (Option.map (Contact.move f)) := by
  unfold gjkToi
  rw [hf, hf]
  dsimp only
  rw [mink_move hf hl hr, mapOk_bind, bind_mapOk]
  refine mapOk_congr fun p => ?_
  have := toiLoop_move hf hl hr hb tolerance (rEnd - rStart - (lEnd - lStart)) fuel [] ⟨0, 0, 0, p.v⟩
  rw [List.map_nil] at this
  show (do let o ← toiLoop closest tolerance left' right' (rEnd - rStart - (lEnd - lStart)) fuel [] ⟨0, 0, 0, p.v⟩; _) = _
  rw [this, bind_mapOk]
  refine mapOk_congr fun o => ?_
  cases o with
  | none => rfl
  | some st =>
    dsimp only
    rw [hp]; rfl
end real

theorem closest2_blind (f : V2 ℝ → V2 ℝ) : Blind' f closest2 := by
  intro s
  unfold closest2
  rw [reduce2_blind f s 0]
  dsimp only
  split
  · rfl
  · generalize (reduce2 s 0).2.1 = t
    match t with
    | [] => rfl
    | [_] => rfl
    | _ :: _ :: _ => rfl

theorem closest3_blind (f : V3 ℝ → V3 ℝ) : Blind' f closest3 := by
  intro s
  unfold closest3
  rw [reduce3_blind f s 0]
  dsimp only
  split
  · rfl
  · generalize (reduce3 s 0).2.1 = t
    generalize (reduce3 s 0).2.2 = w
    match t with
    | [] => rfl
    | [_] => rfl
    | [_, _] => rfl
    | s0 :: s1 :: s2 :: r =>
      show (do let p ← closestOnFace s2.v s1.v s0.v w; _) = _
      dsimp only
      rw [bind_mapOk]
      refine mapOk_congr fun p => ?_
      rfl

/-! ## EPA -/

theorem map_v {V : Type} (f : V → V) (s : List (SP V)) : (s.map (SP.move f)).map SP.v = s.map SP.v := by
  rw [List.map_map]; rfl

theorem closestEdge_move (f : V2 ℝ → V2 ℝ) (s : List (SP (V2 ℝ))) : closestEdge (s.map (SP.move f)) = closestEdge s := by
  unfold closestEdge
  rw [map_v, List.length_map]

theorem epa2Loop_move {f : V2 ℝ → V2 ℝ} (hf : ∀ a b, f a - f b = a - b) {left right left' right' : V2 ℝ → Res (V2 ℝ)} (hl : ∀ d, left' d = (left d).mapOk f)
    (hr : ∀ d, right' d = (right d).mapOk f) (tolerance : ℝ) : ∀ n s e, epa2Loop tolerance left' right' n (s.map (SP.move f)) e =
      (epa2Loop tolerance left right n s e).mapOk fun r => (r.1.map (SP.move f), r.2.1, r.2.2)
  | 0, _, _ => rfl
  | n + 1, s, e => by
    unfold epa2Loop
    rw [mink_move hf hl hr, mapOk_bind, bind_mapOk]
    refine mapOk_congr fun p => ?_
    show (if p.v.dot e.normal - e.distance < tolerance then _ else _) = _
    by_cases h : p.v.dot e.normal - e.distance < tolerance
    · rw [if_pos h, if_pos h]; rfl
    · rw [if_neg h, if_neg h]
      dsimp only
      have he : (s.map (SP.move f)).take e.index ++ SP.move f p :: (s.map (SP.move f)).drop e.index = (s.take e.index ++ p :: s.drop e.index).map (SP.move f) := by
        simp [List.map_append, List.map_take, List.map_drop]
      rw [he, closestEdge_move, bind_mapOk]
      refine mapOk_congr fun o => ?_
      rw [bind_mapOk]
      refine mapOk_congr fun e' => ?_
      exact epa2Loop_move hf hl hr tolerance n _ _

theorem epaPoint2_move (t : V2 ℝ) (s : List (SP (V2 ℝ))) (e : EEdge) : epaPoint2 (s.map (SP.move (· + t))) e = (epaPoint2 s e).mapOk (· + t) := by
  unfold epaPoint2
  rw [List.getElem?_map, ofOption_map, mapOk_bind, bind_mapOk]
  refine mapOk_congr fun b => ?_
  have hv : ∀ p : SP (V2 ℝ), (SP.move (· + t) p).v = p.v := fun _ => rfl
  have hA : ∀ p : SP (V2 ℝ), (SP.move (· + t) p).supA = p.supA + t := fun _ => rfl
  dsimp only
  rw [List.length_map, List.getElem?_map, ofOption_map, List.getElem?_map, ofOption_map]
  have key : ∀ x : Res (SP (V2 ℝ)), (do
      let a ← x.mapOk (SP.move (· + t))
      if (-a.v).dot ((SP.move (· + t) b).v - a.v) / ((SP.move (· + t) b).v - a.v).dot ((SP.move (· + t) b).v - a.v) < 0 then pure a.supA
      else if (-a.v).dot ((SP.move (· + t) b).v - a.v) / ((SP.move (· + t) b).v - a.v).dot ((SP.move (· + t) b).v - a.v) > 1 then pure (SP.move (· + t) b).supA
      else pure (a.supA + ((SP.move (· + t) b).supA - a.supA) * ((-a.v).dot ((SP.move (· + t) b).v - a.v) / ((SP.move (· + t) b).v - a.v).dot ((SP.move (· + t) b).v - a.v))) : Res (V2 ℝ)) =
      (do
      let a ← x
      if (-a.v).dot (b.v - a.v) / (b.v - a.v).dot (b.v - a.v) < 0 then pure a.supA
      else if (-a.v).dot (b.v - a.v) / (b.v - a.v).dot (b.v - a.v) > 1 then pure b.supA
      else pure (a.supA + (b.supA - a.supA) * ((-a.v).dot (b.v - a.v) / (b.v - a.v).dot (b.v - a.v))) : Res (V2 ℝ)).mapOk (· + t) := by
    intro x
    rw [mapOk_bind, bind_mapOk]
    refine mapOk_congr fun a => ?_
    simp only [hv, hA]
    split
    · rfl
    · split
      · rfl
      · show Res.ok _ = Res.ok _
        congr 1
        ext <;> simp <;> ring
  split
  · exact key _
  · exact key _

theorem epa2_move (t : V2 ℝ) {left right left' right' : V2 ℝ → Res (V2 ℝ)} (hl : ∀ d, left' d = (left d).mapOk (· + t)) (hr : ∀ d, right' d = (right d).mapOk (· + t))
    (tolerance : ℝ) (m : Nat) (s : List (SP (V2 ℝ))) :
    epa2 tolerance m left' right' (s.map (SP.move (· + t))) = (epa2 tolerance m left right s).mapOk (Option.map (Contact.move (· + t))) := by
  have hf : ∀ a b : V2 ℝ, a + t - (b + t) = a - b := by intro a b; ext <;> simp
  unfold epa2 epa2Run
  rw [closestEdge_move]
  rw [bind_mapOk]
  cases closestEdge s with
  | panic => rfl
  | timeout => rfl
  | ok o =>
    cases o with
    | none => rfl
    | some e =>
      simp only [Res.bind_ok]
      rw [epa2Loop_move hf hl hr, mapOk_bind]
      cases epa2Loop tolerance left right m s e with
      | panic => rfl
      | timeout => rfl
      | ok r =>
        simp only [Res.bind_ok]
        rw [epaPoint2_move, mapOk_bind]
        cases epaPoint2 r.1 r.2.1 <;> rfl

theorem newImpl_move (f : V3 ℝ → V3 ℝ) (s : List (SP (V3 ℝ))) (a b c : Nat) : EFace.newImpl (s.map (SP.move f)) a b c = EFace.newImpl s a b c := by
  unfold EFace.newImpl
  rw [List.getElem?_map, ofOption_map, mapOk_bind]
  refine mapOk_congr fun sb => ?_
  rw [List.getElem?_map, ofOption_map, mapOk_bind]
  refine mapOk_congr fun sa => ?_
  rw [List.getElem?_map, ofOption_map, mapOk_bind]
  refine mapOk_congr fun sc => ?_
  rfl

theorem newAll_move (f : V3 ℝ → V3 ℝ) (s : List (SP (V3 ℝ))) : EFace.newAll (s.map (SP.move f)) = EFace.newAll s := by
  unfold EFace.newAll
  simp only [newImpl_move]

theorem newFaces_move (f : V3 ℝ → V3 ℝ) (s : List (SP (V3 ℝ))) (n : Nat) : ∀ es, newFaces (s.map (SP.move f)) n es = newFaces s n es
  | [] => rfl
  | (a, b) :: es => by
    unfold newFaces
    rw [newImpl_move, newFaces_move f s n es]

theorem addLoop_move (f : V3 ℝ → V3 ℝ) (s : List (SP (V3 ℝ))) (p : V3 ℝ) : ∀ fuel faces i edges, addLoop (s.map (SP.move f)) p fuel faces i edges = addLoop s p fuel faces i edges
  | 0, _, _, _ => rfl
  | fuel + 1, faces, i, edges => by
    unfold addLoop
    cases faces[i]? with
    | none => rfl
    | some g =>
      dsimp only
      rw [List.getElem?_map, ofOption_map, mapOk_bind]
      refine mapOk_congr fun v0 => ?_
      have hv : (SP.move f v0).v = v0.v := rfl
      rw [hv]
      simp only [addLoop_move f s p fuel]

theorem polytopeAdd_move (f : V3 ℝ → V3 ℝ) (s : List (SP (V3 ℝ))) (fs : List EFace) (p : SP (V3 ℝ)) :
    polytopeAdd (s.map (SP.move f)) fs (SP.move f p) = (polytopeAdd s fs p).mapOk fun r => (r.1.map (SP.move f), r.2) := by
  unfold polytopeAdd
  rw [addLoop_move, bind_mapOk]
  refine mapOk_congr fun r => ?_
  have e : s.map (SP.move f) ++ [SP.move f p] = (s ++ [p]).map (SP.move f) := by simp
  dsimp only
  rw [e, newFaces_move, List.length_map, bind_mapOk]
  refine mapOk_congr fun gs => ?_
  rfl

theorem epaPoint3_move (t : V3 ℝ) (s : List (SP (V3 ℝ))) (g : EFace) (n : V3 ℝ) (d : ℝ) :
    epaPoint3 (s.map (SP.move (· + t))) g n d = (epaPoint3 s g n d).mapOk (· + t) := by
  unfold epaPoint3
  rw [List.getElem?_map, ofOption_map, mapOk_bind, bind_mapOk]
  refine mapOk_congr fun a => ?_
  rw [List.getElem?_map, ofOption_map, mapOk_bind, bind_mapOk]
  refine mapOk_congr fun b => ?_
  rw [List.getElem?_map, ofOption_map, mapOk_bind, bind_mapOk]
  refine mapOk_congr fun c => ?_
  show Res.ok _ = Res.ok _
  congr 1
  show (a.supA + t) * (barycentric (n * d) a.v b.v c.v).1 + (b.supA + t) * (barycentric (n * d) a.v b.v c.v).2.1 + (c.supA + t) * (barycentric (n * d) a.v b.v c.v).2.2 = _
  have hs : (barycentric (n * d) a.v b.v c.v).1 = 1 - (barycentric (n * d) a.v b.v c.v).2.1 - (barycentric (n * d) a.v b.v c.v).2.2 := rfl
  rw [hs]
  ext <;> simp <;> ring

/-- The outcome of EPA in 3D with the contact point moved. -/
def Epa3Out.move (f : V3 ℝ → V3 ℝ) : Epa3Out → Epa3Out
  | .contact c b => .contact (c.move f) b
  | .nan => .nan

theorem epa3Loop_move (t : V3 ℝ) {left right left' right' : V3 ℝ → Res (V3 ℝ)} (hl : ∀ d, left' d = (left d).mapOk (· + t)) (hr : ∀ d, right' d = (right d).mapOk (· + t))
    (tolerance : ℝ) : ∀ fuel s fs, epa3Loop tolerance left' right' fuel (s.map (SP.move (· + t))) fs = (epa3Loop tolerance left right fuel s fs).mapOk (Epa3Out.move (· + t)) := by
  have hf : ∀ a b : V3 ℝ, a + t - (b + t) = a - b := by intro a b; ext <;> simp
  intro fuel
  induction fuel with
  | zero =>
    intro s fs
    unfold epa3Loop
    rw [bind_mapOk]
    refine mapOk_congr fun g => ?_
    cases g.plane with
    | none => rfl
    | some pl =>
      obtain ⟨n, dist⟩ := pl
      dsimp only
      rw [mink_move hf hl hr, mapOk_bind, bind_mapOk]
      refine mapOk_congr fun p => ?_
      show (if p.v.dot n - dist < tolerance then _ else _) = _
      by_cases h : p.v.dot n - dist < tolerance
      · rw [if_pos h, if_pos h, epaPoint3_move, mapOk_bind, bind_mapOk]
        refine mapOk_congr fun q => ?_
        rfl
      · rw [if_neg h, if_neg h, epaPoint3_move, mapOk_bind, bind_mapOk]
        refine mapOk_congr fun q => ?_
        rfl
  | succ fuel ih =>
    intro s fs
    unfold epa3Loop
    rw [bind_mapOk]
    refine mapOk_congr fun g => ?_
    cases g.plane with
    | none => rfl
    | some pl =>
      obtain ⟨n, dist⟩ := pl
      dsimp only
      rw [mink_move hf hl hr, mapOk_bind, bind_mapOk]
      refine mapOk_congr fun p => ?_
      show (if p.v.dot n - dist < tolerance then _ else _) = _
      by_cases h : p.v.dot n - dist < tolerance
      · rw [if_pos h, if_pos h, epaPoint3_move, mapOk_bind, bind_mapOk]
        refine mapOk_congr fun q => ?_
        rfl
      · rw [if_neg h, if_neg h, polytopeAdd_move, mapOk_bind, bind_mapOk]
        refine mapOk_congr fun r => ?_
        exact ih _ _

theorem epa3_move (t : V3 ℝ) {left right left' right' : V3 ℝ → Res (V3 ℝ)} (hl : ∀ d, left' d = (left d).mapOk (· + t)) (hr : ∀ d, right' d = (right d).mapOk (· + t))
    (tolerance : ℝ) (m : Nat) (s : List (SP (V3 ℝ))) :
    epa3 tolerance m left' right' (s.map (SP.move (· + t))) = (epa3 tolerance m left right s).mapOk (Option.map (Epa3Out.move (· + t))) := by
  unfold epa3
  rw [List.length_map]
  split
  · rfl
  · rw [newAll_move, bind_mapOk]
    refine mapOk_congr fun fs => ?_
    rw [epa3Loop_move t hl hr, mapOk_bind, bind_mapOk]
    refine mapOk_congr fun o => ?_
    rfl

/-! ## Primitives -/

/-- A placement moved by `t`. -/
def moved2 (D : Dec2 ℝ) (t : V2 ℝ) : Dec2 ℝ := ⟨D.scale, D.rot, D.disp + t⟩
/-- A placement moved by `t`. -/
def moved3 (D : Dec3 ℝ) (t : V3 ℝ) : Dec3 ℝ := ⟨D.scale, D.rot, D.disp + t⟩

theorem moved2_point (D : Dec2 ℝ) (t p : V2 ℝ) : (moved2 D t).tr.point p = D.tr.point p + t := by
  simp only [Dec2.tr, moved2]; ext <;> simp <;> ring
theorem moved3_point (D : Dec3 ℝ) (t p : V3 ℝ) : (moved3 D t).tr.point p = D.tr.point p + t := by
  simp only [Dec3.tr, moved3]; ext <;> simp <;> ring

/-- The shape of a moved placement asks and answers as before, with the answer moved: any local support function, which may fail. -/
theorem local_moved2 (D : Dec2 ℝ) (t : V2 ℝ) (loc : V2 ℝ → Res (V2 ℝ)) (d : V2 ℝ) :
    (do let e ← Res.ofOption ((moved2 D t).tr.invVector d); let p ← loc e; return (moved2 D t).tr.point p : Res (V2 ℝ)) =
      (do let e ← Res.ofOption (D.tr.invVector d); let p ← loc e; return D.tr.point p : Res (V2 ℝ)).mapOk (· + t) := by
  rw [bind_mapOk]
  refine mapOk_congr fun e => ?_
  rw [bind_mapOk]
  refine mapOk_congr fun p => ?_
  rw [moved2_point]; rfl
theorem local_moved3 (D : Dec3 ℝ) (t : V3 ℝ) (loc : V3 ℝ → Res (V3 ℝ)) (d : V3 ℝ) :
    (do let e ← Res.ofOption ((moved3 D t).tr.invVector d); let p ← loc e; return (moved3 D t).tr.point p : Res (V3 ℝ)) =
      (do let e ← Res.ofOption (D.tr.invVector d); let p ← loc e; return D.tr.point p : Res (V3 ℝ)).mapOk (· + t) := by
  rw [bind_mapOk]
  refine mapOk_congr fun e => ?_
  rw [bind_mapOk]
  refine mapOk_congr fun p => ?_
  rw [moved3_point]; rfl
theorem support_moved2 (D : Dec2 ℝ) (t : V2 ℝ) (loc : V2 ℝ → V2 ℝ) (d : V2 ℝ) : support loc (moved2 D t).tr d = (support loc D.tr d).mapOk (· + t) :=
  local_moved2 D t (fun e => .ok (loc e)) d
theorem support_moved3 (D : Dec3 ℝ) (t : V3 ℝ) (loc : V3 ℝ → V3 ℝ) (d : V3 ℝ) : support loc (moved3 D t).tr d = (support loc D.tr d).mapOk (· + t) :=
  local_moved3 D t (fun e => .ok (loc e)) d

theorem round_moved2 (D : Dec2 ℝ) (t : V2 ℝ) (loc : V2 ℝ → V2 ℝ) (d : V2 ℝ) : supportRound loc (moved2 D t).tr d = (supportRound loc D.tr d).mapOk (· + t) := by
  have h : ∀ D : Dec2 ℝ, supportRound loc D.tr d = (do let e ← Res.ofOption (D.tr.invVector d); let p ← (if e = 0 then nanPoint else .ok (loc e)); return D.tr.point p : Res (V2 ℝ)) := by
    intro D
    unfold supportRound
    cases D.tr.invVector d with
    | none => rfl
    | some e =>
      by_cases he : e = 0
      · simp [he, nanPoint]
      · simp [he]
  rw [h, h]
  exact local_moved2 D t (fun e => if e = 0 then nanPoint else .ok (loc e)) d

theorem round_moved3 (D : Dec3 ℝ) (t : V3 ℝ) (loc : V3 ℝ → V3 ℝ) (d : V3 ℝ) : supportRound loc (moved3 D t).tr d = (supportRound loc D.tr d).mapOk (· + t) := by
  have h : ∀ D : Dec3 ℝ, supportRound loc D.tr d = (do let e ← Res.ofOption (D.tr.invVector d); let p ← (if e = 0 then nanPoint else .ok (loc e)); return D.tr.point p : Res (V3 ℝ)) := by
    intro D
    unfold supportRound
    cases D.tr.invVector d with
    | none => rfl
    | some e =>
      by_cases he : e = 0
      · simp [he, nanPoint]
      · simp [he]
  rw [h, h]
  exact local_moved3 D t (fun e => if e = 0 then nanPoint else .ok (loc e)) d

theorem prim2_moved (s : Prim2) (D : Dec2 ℝ) (t d : V2 ℝ) : s.supportPoint (moved2 D t).tr d = (s.supportPoint D.tr d).mapOk (· + t) := by
  cases s with
  | particle => show Res.ok _ = Res.ok _; rw [moved2_point]
  | line l => exact support_moved2 D t _ d
  | circle s => exact round_moved2 D t _ d
  | rectangle s => exact support_moved2 D t _ d
  | square s => exact support_moved2 D t _ d
  | polygon s =>
    show s.supportPoint _ d = (s.supportPoint _ d).mapOk _
    unfold Polygon.supportPoint
    split
    · exact support_moved2 D t _ d
    · exact local_moved2 D t (climb s.vertices) d

theorem prim3_moved (s : Prim3) (nz : V3 ℝ → Bool) (D : Dec3 ℝ) (t d : V3 ℝ) : s.supportPoint nz (moved3 D t).tr d = (s.supportPoint nz D.tr d).mapOk (· + t) := by
  cases s with
  | particle => show Res.ok _ = Res.ok _; rw [moved3_point]
  | quad s => exact support_moved3 D t _ d
  | sphere s => exact round_moved3 D t _ d
  | cuboid s => exact support_moved3 D t _ d
  | cube s => exact support_moved3 D t _ d
  | cylinder s => exact support_moved3 D t _ d
  | capsule s => exact round_moved3 D t _ d
  | polyhedron s =>
    show s.supportPoint _ d = (s.supportPoint _ d).mapOk _
    unfold Polyhedron.supportPoint
    split
    · exact local_moved3 D t (hillClimb s.positions s.mesh) d
    · exact support_moved3 D t _ d

theorem add_sub2 (t a b : V2 ℝ) : a + t - (b + t) = a - b := by ext <;> simp
theorem add_sub3 (t a b : V3 ℝ) : a + t - (b + t) = a - b := by ext <;> simp

/-- C88 in 2D, collision test: the answer does not depend on where both shapes are moved together. -/
theorem c88_collision_2d (s t : Prim2) (D E : Dec2 ℝ) (w : V2 ℝ) (n : Nat) :
    ∀ epa epa' : List (SP (V2 ℝ)) → Res (Option (Contact (V2 ℝ) ℝ)),
    gjkIntersection reduce2 n epa' .collisionOnly (s.supportPoint (moved2 D w).tr) (t.supportPoint (moved2 E w).tr) ((moved2 D w).tr.point 0) ((moved2 E w).tr.point 0) =
      gjkIntersection reduce2 n epa .collisionOnly (s.supportPoint D.tr) (t.supportPoint E.tr) (D.tr.point 0) (E.tr.point 0) := by
  intro epa epa'
  unfold gjkIntersection
  rw [moved2_point, moved2_point, gjkIntersect_move (f := (· + w)) (add_sub2 w) (prim2_moved s D w) (prim2_moved t E w) (reduce2_blind _), mapOk_bind]
  refine mapOk_congr fun o => ?_
  cases o <;> rfl

/-- C88 in 2D, full resolution: moving both shapes by `w` moves the contact point by `w` and leaves normal and depth as they are (panics included). -/
theorem c88_full_2d (s t : Prim2) (D E : Dec2 ℝ) (w : V2 ℝ) (tolerance : ℝ) (n m : Nat) :
    gjkIntersection reduce2 n (epa2 tolerance m (s.supportPoint (moved2 D w).tr) (t.supportPoint (moved2 E w).tr)) .fullResolution (s.supportPoint (moved2 D w).tr)
        (t.supportPoint (moved2 E w).tr) ((moved2 D w).tr.point 0) ((moved2 E w).tr.point 0) =
      (gjkIntersection reduce2 n (epa2 tolerance m (s.supportPoint D.tr) (t.supportPoint E.tr)) .fullResolution (s.supportPoint D.tr) (t.supportPoint E.tr)
        (D.tr.point 0) (E.tr.point 0)).mapOk (Option.map fun c => { c with point := c.point + w }) := by
  unfold gjkIntersection
  rw [moved2_point, moved2_point, gjkIntersect_move (f := (· + w)) (add_sub2 w) (prim2_moved s D w) (prim2_moved t E w) (reduce2_blind _), mapOk_bind, bind_mapOk]
  refine mapOk_congr fun o => ?_
  cases o with
  | none => rfl
  | some x => exact epa2_move w (prim2_moved s D w) (prim2_moved t E w) tolerance m x

/-- C88 in 2D, distance: unchanged. `nan` is the support point found for a NaN direction (it moves with the shapes). -/
theorem c88_distance_2d (s t : Prim2) (D E : Dec2 ℝ) (w : V2 ℝ) (tolerance : ℝ) (n : Nat) (nan : SP (V2 ℝ)) :
    gjkDistance closest2 tolerance n (s.supportPoint (moved2 D w).tr) (t.supportPoint (moved2 E w).tr) (.ok ⟨nan.v, nan.supA + w, nan.supB + w⟩)
        ((moved2 D w).tr.point 0) ((moved2 E w).tr.point 0) =
      gjkDistance closest2 tolerance n (s.supportPoint D.tr) (t.supportPoint E.tr) (.ok nan) (D.tr.point 0) (E.tr.point 0) := by
  rw [moved2_point, moved2_point]
  exact gjkDistance_move (f := (· + w)) (add_sub2 w) (prim2_moved s D w) (prim2_moved t E w) (closest2_blind _) tolerance n (.ok nan) _ _

/-- C88 in 2D, time of impact: moving start and end of both shapes by `w` moves the contact point by `w` and leaves time, normal and depth as they are. -/
theorem c88_toi_2d (s t : Prim2) (D D' E E' : Dec2 ℝ) (w : V2 ℝ) (tolerance : ℝ) (fuel : Nat) :
    gjkToi closest2 V2.normalize tolerance fuel (s.supportPoint (moved2 D w).tr) (t.supportPoint (moved2 E w).tr) ((moved2 D w).tr.point 0) ((moved2 D' w).tr.point 0)
        ((moved2 E w).tr.point 0) ((moved2 E' w).tr.point 0) (fun a p => (Dec2.translationInterpolate (moved2 E w) (moved2 E' w) a).tr.point p) =
      (gjkToi closest2 V2.normalize tolerance fuel (s.supportPoint D.tr) (t.supportPoint E.tr) (D.tr.point 0) (D'.tr.point 0) (E.tr.point 0) (E'.tr.point 0)
        (fun a p => (Dec2.translationInterpolate E E' a).tr.point p)).mapOk (Option.map fun c => { c with point := c.point + w }) := by
  rw [moved2_point, moved2_point, moved2_point, moved2_point]
  refine gjkToi_move (f := (· + w)) (add_sub2 w) (prim2_moved s D w) (prim2_moved t E w) (closest2_blind _) _ tolerance fuel _ _ _ _ ?_
  intro a p
  simp only [Dec2.tr, Dec2.translationInterpolate, moved2]; ext <;> simp <;> ring

/-- C88 in 3D, collision test. -/
theorem c88_collision_3d (s t : Prim3) (nz nz' : V3 ℝ → Bool) (D E : Dec3 ℝ) (w : V3 ℝ) (n : Nat) :
    ∀ epa epa' : List (SP (V3 ℝ)) → Res (Option (Contact (V3 ℝ) ℝ)),
    gjkIntersection reduce3 n epa' .collisionOnly (s.supportPoint nz (moved3 D w).tr) (t.supportPoint nz' (moved3 E w).tr) ((moved3 D w).tr.point 0) ((moved3 E w).tr.point 0) =
      gjkIntersection reduce3 n epa .collisionOnly (s.supportPoint nz D.tr) (t.supportPoint nz' E.tr) (D.tr.point 0) (E.tr.point 0) := by
  intro epa epa'
  unfold gjkIntersection
  rw [moved3_point, moved3_point, gjkIntersect_move (f := (· + w)) (add_sub3 w) (prim3_moved s nz D w) (prim3_moved t nz' E w) (reduce3_blind _), mapOk_bind]
  refine mapOk_congr fun o => ?_
  cases o <;> rfl

/-- C88 in 3D, full resolution. -/
theorem c88_full_3d (s t : Prim3) (nz nz' : V3 ℝ → Bool) (D E : Dec3 ℝ) (w : V3 ℝ) (tolerance : ℝ) (n m : Nat) :
    full3 tolerance n m (s.supportPoint nz (moved3 D w).tr) (t.supportPoint nz' (moved3 E w).tr) ((moved3 D w).tr.point 0) ((moved3 E w).tr.point 0) =
      (full3 tolerance n m (s.supportPoint nz D.tr) (t.supportPoint nz' E.tr) (D.tr.point 0) (E.tr.point 0)).mapOk (Option.map (Epa3Out.move (· + w))) := by
  unfold full3
  rw [moved3_point, moved3_point, gjkIntersect_move (f := (· + w)) (add_sub3 w) (prim3_moved s nz D w) (prim3_moved t nz' E w) (reduce3_blind _), mapOk_bind, bind_mapOk]
  refine mapOk_congr fun o => ?_
  cases o with
  | none => rfl
  | some x => exact epa3_move w (prim3_moved s nz D w) (prim3_moved t nz' E w) tolerance m x

/-- C88 in 3D, distance. -/
theorem c88_distance_3d (s t : Prim3) (nz nz' : V3 ℝ → Bool) (D E : Dec3 ℝ) (w : V3 ℝ) (tolerance : ℝ) (n : Nat) (nan : SP (V3 ℝ)) :
    gjkDistance closest3 tolerance n (s.supportPoint nz (moved3 D w).tr) (t.supportPoint nz' (moved3 E w).tr) (.ok ⟨nan.v, nan.supA + w, nan.supB + w⟩)
        ((moved3 D w).tr.point 0) ((moved3 E w).tr.point 0) =
      gjkDistance closest3 tolerance n (s.supportPoint nz D.tr) (t.supportPoint nz' E.tr) (.ok nan) (D.tr.point 0) (E.tr.point 0) := by
  rw [moved3_point, moved3_point]
  exact gjkDistance_move (f := (· + w)) (add_sub3 w) (prim3_moved s nz D w) (prim3_moved t nz' E w) (closest3_blind _) tolerance n (.ok nan) _ _

/-- C88 in 3D, time of impact. -/
theorem c88_toi_3d (s t : Prim3) (nz nz' : V3 ℝ → Bool) (D D' E E' : Dec3 ℝ) (w : V3 ℝ) (tolerance : ℝ) (fuel : Nat) :
    gjkToi closest3 V3.normalize tolerance fuel (s.supportPoint nz (moved3 D w).tr) (t.supportPoint nz' (moved3 E w).tr) ((moved3 D w).tr.point 0) ((moved3 D' w).tr.point 0)
        ((moved3 E w).tr.point 0) ((moved3 E' w).tr.point 0) (fun a p => (Dec3.translationInterpolate (moved3 E w) (moved3 E' w) a).tr.point p) =
      (gjkToi closest3 V3.normalize tolerance fuel (s.supportPoint nz D.tr) (t.supportPoint nz' E.tr) (D.tr.point 0) (D'.tr.point 0) (E.tr.point 0) (E'.tr.point 0)
        (fun a p => (Dec3.translationInterpolate E E' a).tr.point p)).mapOk (Option.map fun c => { c with point := c.point + w }) := by
  rw [moved3_point, moved3_point, moved3_point, moved3_point]
  refine gjkToi_move (f := (· + w)) (add_sub3 w) (prim3_moved s nz D w) (prim3_moved t nz' E w) (closest3_blind _) _ tolerance fuel _ _ _ _ ?_
  intro a p
  simp only [Dec3.tr, Dec3.translationInterpolate, moved3]; ext <;> simp <;> ring

/-- A case with an answer: the boxes of `c79_example`, both moved by `(5, 5, 5)`, still collide. -/
theorem c88_example (n : Nat) (nz : V3 ℝ → Bool) : ∀ epa, ∃ c, gjkIntersection reduce3 (n + 3) epa .collisionOnly
    ((Prim3.cuboid (Cuboid.new (12 : ℝ) 12 12)).supportPoint nz (moved3 (shift3 0 0 0) ⟨5, 5, 5⟩).tr) ((Prim3.cuboid (Cuboid.new (12 : ℝ) 12 12)).supportPoint nz (moved3 (shift3 6 3 2) ⟨5, 5, 5⟩).tr)
    ((moved3 (shift3 0 0 0) ⟨5, 5, 5⟩).tr.point 0) ((moved3 (shift3 6 3 2) ⟨5, 5, 5⟩).tr.point 0) = .ok (some c) := by
  intro epa
  rw [c88_collision_3d (.cuboid _) (.cuboid _) nz nz (shift3 0 0 0) (shift3 6 3 2) ⟨5, 5, 5⟩ (n + 3) epa epa]
  obtain ⟨x, hx⟩ := c79_example n
  unfold gjkIntersection
  refine ⟨Contact.new .collisionOnly, ?_⟩
  show (do let o ← gjkIntersect reduce3 (n + 3) ((Cuboid.new (12 : ℝ) 12 12).supportPoint (shift3 0 0 0).tr) ((Cuboid.new (12 : ℝ) 12 12).supportPoint (shift3 6 3 2).tr) _ _; _) = _
  rw [hx]; rfl
end
end Verif.Minkowski
