import Verif.Minkowski.Translate
/-!
# Exchanging the two shapes (C89)
-/
namespace Verif.Minkowski
open Verif Geom Primitive
set_option linter.unusedSectionVars false
noncomputable section

/-- The support point found when the shapes are exchanged and the direction is turned round. -/
def SP.swap {V : Type} [Neg V] (p : SP V) : SP V := ⟨-p.v, p.supB, p.supA⟩

theorem V2.neg_neg' (a : V2 ℝ) : - -a = a := by ext <;> simp
theorem V2.neg_eq_zero' {a : V2 ℝ} : -a = 0 ↔ a = 0 := by
  constructor
  · intro h
    have h1 := congrArg V2.x h
    have h2 := congrArg V2.y h
    simp at h1 h2
    ext <;> simp [h1, h2]
  · rintro rfl; ext <;> simp
theorem V2.dot_neg' (a b : V2 ℝ) : (-a).dot (-b) = a.dot b := by simp only [V2.dot, V2.neg_x, V2.neg_y]; ring

theorem mink_swap (left right : V2 ℝ → Res (V2 ℝ)) (d : V2 ℝ) (hl : ∀ d, left d ≠ .timeout) (hr : ∀ d, right d ≠ .timeout) :
    SP.fromMinkowski right left (-d) = (SP.fromMinkowski left right d).mapOk SP.swap := by
  unfold SP.fromMinkowski
  rw [V2.neg_neg']
  have h1 := hl d
  have h2 := hr (-d)
  cases ha : left d with
  | ok a =>
    cases hb : right (-d) with
    | ok b =>
      show Res.ok _ = Res.ok _
      congr 1
      unfold SP.swap
      congr 1
      ext <;> simp
    | panic => rfl
    | timeout => exact absurd hb h2
  | panic =>
    cases hb : right (-d) with
    | ok b => rfl
    | panic => rfl
    | timeout => exact absurd hb h2
  | timeout => exact absurd ha h1

theorem reduce2_swap (s : List (SP (V2 ℝ))) (d : V2 ℝ) : reduce2 (s.map SP.swap) (-d) = ((reduce2 s d).1, (reduce2 s d).2.1.map SP.swap, -(reduce2 s d).2.2) := by
  have ht : ∀ a b c : V2 ℝ, tripleProduct (-a) (-b) (-c) = -tripleProduct a b c := by
    intro a b c; ext <;> simp [tripleProduct] <;> ring
  have hs : ∀ a b : V2 ℝ, -a - -b = -(a - b) := by intro a b; ext <;> simp <;> ring
  match s with
  | [] => rfl
  | [_] => rfl
  | [s0, s1] =>
    simp only [List.map_cons, List.map_nil, reduce2, SP.swap, hs, ht, V2.neg_eq_zero']
    split
    · congr 2
    · rfl
  | [s0, s1, s2] =>
    simp only [List.map_cons, List.map_nil, reduce2, SP.swap, hs, ht, V2.dot_neg']
    split
    · rfl
    · split <;> rfl
  | _ :: _ :: _ :: _ :: _ => rfl

/-- The outcome of GJK with the shapes exchanged. -/
def Out.swap {V : Type} [Neg V] : Out V → Out V
  | .hit s => .hit (s.map SP.swap)
  | .miss => .miss
  | .exhausted => .exhausted

section
variable {left right : V2 ℝ → Res (V2 ℝ)} (hl : ∀ d, left d ≠ .timeout) (hr : ∀ d, right d ≠ .timeout)
include hl hr

theorem gjkLoop_swap : ∀ n s d, gjkLoop reduce2 right left n (s.map SP.swap) (-d) = (gjkLoop reduce2 left right n s d).mapOk Out.swap
  | 0, _, _ => rfl
  | n + 1, s, d => by
    unfold gjkLoop
    rw [mink_swap left right d hl hr, mapOk_bind, bind_mapOk]
    refine mapOk_congr fun a => ?_
    have hv : Inner.dot (SP.swap a).v (-d) = Inner.dot a.v d := V2.dot_neg' a.v d
    rw [hv]
    by_cases h : Inner.dot a.v d ≤ 0
    · rw [if_pos h, if_pos h]; rfl
    · rw [if_neg h, if_neg h]
      have e : s.map SP.swap ++ [SP.swap a] = (s ++ [a]).map SP.swap := by simp
      rw [e, reduce2_swap]
      dsimp only
      by_cases h2 : (reduce2 (s ++ [a]) d).1 = true
      · rw [if_pos h2, if_pos h2]; rfl
      · rw [if_neg h2, if_neg h2]
        exact gjkLoop_swap n _ _

theorem gjkRun_swap (n : Nat) {lp rp : V2 ℝ} (hp : lp ≠ rp) : gjkRun reduce2 n right left rp lp = (gjkRun reduce2 n left right lp rp).mapOk Out.swap := by
  have h0 : ∀ a b : V2 ℝ, a ≠ b → a - b ≠ 0 := by
    intro a b h e; apply h
    have h1 := congrArg V2.x e
    have h2 := congrArg V2.y e
    simp at h1 h2
    ext <;> linarith
  have hd : firstDirection rp lp = -firstDirection lp rp := by
    unfold firstDirection
    dsimp only
    rw [if_neg (h0 _ _ hp), if_neg (h0 _ _ hp.symm)]
    ext <;> simp
  unfold gjkRun
  rw [hd]
  dsimp only
  rw [mink_swap left right _ hl hr, mapOk_bind, bind_mapOk]
  refine mapOk_congr fun a => ?_
  have hv : Inner.dot (SP.swap a).v (-firstDirection lp rp) = Inner.dot a.v (firstDirection lp rp) := V2.dot_neg' _ _
  rw [hv]
  by_cases h : Inner.dot a.v (firstDirection lp rp) ≤ 0
  · rw [if_pos h, if_pos h]; rfl
  · rw [if_neg h, if_neg h]
    exact gjkLoop_swap hl hr n [a] _

theorem gjkIntersect_swap (n : Nat) {lp rp : V2 ℝ} (hp : lp ≠ rp) :
    gjkIntersect reduce2 n right left rp lp = (gjkIntersect reduce2 n left right lp rp).mapOk (Option.map (List.map SP.swap)) := by
  unfold gjkIntersect
  rw [gjkRun_swap hl hr n hp, mapOk_bind, bind_mapOk]
  refine mapOk_congr fun a => ?_
  cases a <;> rfl
end

/-! ## EPA -/
section epa

/-- The same edge of the mirrored polygon. -/
def EEdge.swap (e : EEdge) : EEdge := ⟨-e.normal, e.distance, e.index⟩

open Classical in
theorem closestEdgeLoop_swap (vs : List (V2 ℝ)) : ∀ is best, closestEdgeLoop (vs.map (fun v => -v)) is (best.map EEdge.swap) = (closestEdgeLoop vs is best).mapOk (Option.map EEdge.swap)
  | [], best => rfl
  | i :: is, best => by
    have ht : ∀ a b c : V2 ℝ, tripleProduct (-a) (-b) (-c) = -tripleProduct a b c := by
      intro a b c; ext <;> simp [tripleProduct] <;> ring
    have hs : ∀ a b : V2 ℝ, -a - -b = -(a - b) := by intro a b; ext <;> simp <;> ring
    have hn : ∀ a : V2 ℝ, (-a).normalize = -a.normalize := by
      intro a; unfold V2.normalize; rw [V2.norm_neg]; ext <;> simp
    unfold closestEdgeLoop
    dsimp only
    rw [List.length_map, List.getElem?_map, ofOption_map, mapOk_bind, bind_mapOk]
    refine mapOk_congr fun a => ?_
    rw [List.getElem?_map, ofOption_map, mapOk_bind, bind_mapOk]
    refine mapOk_congr fun b => ?_
    rw [hs, ht]
    by_cases h0 : tripleProduct (b - a) a (b - a) = 0
    · rw [if_pos h0, if_pos (V2.neg_eq_zero'.mpr h0)]
      exact closestEdgeLoop_swap vs is best
    · rw [if_neg h0, if_neg (fun h => h0 (V2.neg_eq_zero'.mp h)), hn, V2.dot_neg']
      cases best with
      | none => exact closestEdgeLoop_swap vs is (some ⟨_, _, _⟩)
      | some b' =>
        show closestEdgeLoop _ is (if _ < b'.distance then _ else _) = _
        dsimp only
        have := closestEdgeLoop_swap vs is (if (tripleProduct (b - a) a (b - a)).normalize.dot a < b'.distance then
          some ⟨(tripleProduct (b - a) a (b - a)).normalize, (tripleProduct (b - a) a (b - a)).normalize.dot a, if i + 1 = vs.length then 0 else i + 1⟩ else some b')
        rw [← this]
        congr 1
        split <;> rfl

theorem closestEdge_swap (s : List (SP (V2 ℝ))) : closestEdge (s.map SP.swap) = (closestEdge s).mapOk (Option.map EEdge.swap) := by
  unfold closestEdge
  rw [List.length_map]
  split
  · rfl
  · have e : (s.map SP.swap).map SP.v = (s.map SP.v).map (fun v => -v) := by rw [List.map_map, List.map_map]; rfl
    have := closestEdgeLoop_swap (s.map SP.v) (List.range s.length) none
    rw [Option.map_none] at this
    rw [e, this, mapOk_bind, bind_mapOk]
    refine mapOk_congr fun o => ?_
    cases o <;> rfl

variable {left right : V2 ℝ → Res (V2 ℝ)} (hl : ∀ d, left d ≠ .timeout) (hr : ∀ d, right d ≠ .timeout)
include hl hr

theorem epa2Loop_swap (tolerance : ℝ) : ∀ n s e, epa2Loop tolerance right left n (s.map SP.swap) e.swap =
      (epa2Loop tolerance left right n s e).mapOk fun r => (r.1.map SP.swap, r.2.1.swap, r.2.2)
  | 0, _, _ => rfl
  | n + 1, s, e => by
    unfold epa2Loop
    have h0 := mink_swap left right e.normal hl hr
    show (do let p ← SP.fromMinkowski right left (-e.normal); _) = _
    rw [h0, mapOk_bind, bind_mapOk]
    refine mapOk_congr fun p => ?_
    have hv : (SP.swap p).v.dot e.swap.normal = p.v.dot e.normal := V2.dot_neg' _ _
    rw [hv]
    show (if p.v.dot e.normal - e.distance < tolerance then _ else _) = _
    by_cases h : p.v.dot e.normal - e.distance < tolerance
    · rw [if_pos h, if_pos h]; rfl
    · rw [if_neg h, if_neg h]
      dsimp only
      have he : (s.map SP.swap).take e.swap.index ++ SP.swap p :: (s.map SP.swap).drop e.swap.index = (s.take e.index ++ p :: s.drop e.index).map SP.swap := by
        simp [List.map_append, List.map_take, List.map_drop, EEdge.swap]
      rw [he, closestEdge_swap, mapOk_bind, bind_mapOk]
      refine mapOk_congr fun o => ?_
      rw [ofOption_map, mapOk_bind, bind_mapOk]
      refine mapOk_congr fun e' => ?_
      exact epa2Loop_swap tolerance n _ _

/-- EPA on the mirrored simplex answers whenever it does on the simplex, with the opposite normal and the same depth. -/
theorem epa2_swap (tolerance : ℝ) (m : Nat) (s : List (SP (V2 ℝ))) {o : Option (Contact (V2 ℝ) ℝ)} (h : epa2 tolerance m left right s = .ok o) :
    ∃ o', epa2 tolerance m right left (s.map SP.swap) = .ok o' ∧ (o' = none ↔ o = none) ∧ ∀ c c', o = some c → o' = some c' → c'.normal = -c.normal ∧ c'.depth = c.depth := by
  unfold epa2 epa2Run at h ⊢
  rw [closestEdge_swap]
  cases he : closestEdge s with
  | panic => rw [he] at h; cases h
  | timeout => rw [he] at h; cases h
  | ok e =>
    rw [he] at h
    cases e with
    | none =>
      cases h
      exact ⟨none, rfl, Iff.rfl, nofun⟩
    | some e =>
      simp only [Res.bind_ok, Res.mapOk, Option.map_some] at h ⊢
      rw [epa2Loop_swap hl hr, mapOk_bind]
      cases hr' : epa2Loop tolerance left right m s e with
      | panic => rw [hr'] at h; cases h
      | timeout => rw [hr'] at h; cases h
      | ok r =>
        rw [hr'] at h
        simp only [Res.bind_ok] at h ⊢
        cases hp : epaPoint2 r.1 r.2.1 with
        | panic => rw [hp] at h; cases h
        | timeout => rw [hp] at h; cases h
        | ok q =>
          rw [hp] at h
          cases h
          obtain ⟨q', hq'⟩ : ∃ q', epaPoint2 (r.1.map SP.swap) r.2.1.swap = .ok q' := by
            unfold epaPoint2 at hp ⊢
            rw [Res.bind_eq_ok] at hp
            obtain ⟨b, hb, hp⟩ := hp
            have hb' : Res.ofOption (r.1.map SP.swap)[r.2.1.swap.index]? = .ok b.swap := by
              show Res.ofOption (r.1.map SP.swap)[r.2.1.index]? = _
              rw [List.getElem?_map, ofOption_map, hb]; rfl
            rw [hb', Res.bind_ok]
            show ∃ q', (if r.2.1.index = 0 then _ else _ : Res (V2 ℝ)) = .ok q'
            dsimp only at hp
            have key : ∀ x : Option (SP (V2 ℝ)), ∀ a, Res.ofOption x = .ok a → Res.ofOption (x.map SP.swap) = .ok (SP.swap a) := by
              intro x a hx; cases x with
              | none => cases hx
              | some y => cases hx; rfl
            split at hp <;> rename_i hi
            · rw [Res.bind_eq_ok] at hp
              obtain ⟨a, ha, -⟩ := hp
              rw [if_pos hi, List.length_map, List.getElem?_map, key _ _ ha, Res.bind_ok]
              dsimp only
              split
              · exact ⟨_, rfl⟩
              · split <;> exact ⟨_, rfl⟩
            · rw [Res.bind_eq_ok] at hp
              obtain ⟨a, ha, -⟩ := hp
              rw [if_neg hi]
              show ∃ q', (do let a ← Res.ofOption (r.1.map SP.swap)[r.2.1.index - 1]?; _ : Res (V2 ℝ)) = .ok q'
              rw [List.getElem?_map, key _ _ ha, Res.bind_ok]
              dsimp only
              split
              · exact ⟨_, rfl⟩
              · split <;> exact ⟨_, rfl⟩
          refine ⟨some (Contact.newWithPoint .fullResolution (-r.2.1.normal) r.2.1.distance q'), ?_, ⟨nofun, nofun⟩, ?_⟩
          · show (do let p ← epaPoint2 (r.1.map SP.swap) r.2.1.swap; _ : Res _) >>= _ = _
            rw [hq']; rfl
          · intro c c' hc hc'
            cases hc; cases hc'
            exact ⟨rfl, rfl⟩
end epa

/-! ## Distance and time of impact -/
section toi
open Classical

theorem normalize_neg2 (a : V2 ℝ) : (-a).normalize = -a.normalize := by
  unfold V2.normalize; rw [V2.norm_neg]; ext <;> simp
theorem sub_neg2 (a b : V2 ℝ) : -a - -b = -(a - b) := by ext <;> simp <;> ring

theorem closestOnEdge2_swap (a b : V2 ℝ) : closestOnEdge2 (-a) (-b) = (closestOnEdge2 a b).map (fun v => -v) := by
  unfold closestOnEdge2
  dsimp only
  rw [sub_neg2, V2.dot_neg']
  by_cases h : b - a = 0
  · rw [if_pos h, if_pos (V2.neg_eq_zero'.mpr h)]; rfl
  · rw [if_neg h, if_neg (fun e => h (V2.neg_eq_zero'.mp e)), normalize_neg2]
    have e : (0 - -a : V2 ℝ).dot (-(b - a).normalize) = (0 - a).dot (b - a).normalize := by
      simp only [V2.dot, V2.sub_x, V2.sub_y, V2.neg_x, V2.neg_y, V2.zero_x, V2.zero_y]; ring
    rw [e]
    simp only [Option.map_some]
    congr 1
    split
    · rfl
    · split
      · rfl
      · ext <;> simp <;> ring

theorem closest2_swap (s : List (SP (V2 ℝ))) : closest2 (s.map SP.swap) = (closest2 s).mapOk fun c => (c.1.map (fun v => -v), c.2.map SP.swap) := by
  unfold closest2
  have h := reduce2_swap s 0
  have z : -(0 : V2 ℝ) = 0 := by ext <;> simp
  rw [z] at h
  rw [h]
  dsimp only
  by_cases h2 : (reduce2 s 0).1 = true
  · rw [if_pos h2, if_pos h2]; rfl
  · rw [if_neg h2, if_neg h2]
    generalize (reduce2 s 0).2.1 = t
    match t with
    | [] => rfl
    | [_] => rfl
    | s0 :: s1 :: r =>
      show Res.ok (closestOnEdge2 (-s1.v) (-s0.v), _) = Res.ok _
      rw [closestOnEdge2_swap]; rfl

variable {left right : V2 ℝ → Res (V2 ℝ)} (hl : ∀ d, left d ≠ .timeout) (hr : ∀ d, right d ≠ .timeout)
include hl hr

theorem distanceLoop_swap (tolerance : ℝ) (nan : Res (SP (V2 ℝ))) :
    ∀ n s, distanceLoop closest2 tolerance right left (nan.mapOk SP.swap) n (s.map SP.swap) = distanceLoop closest2 tolerance left right nan n s
  | 0, _ => rfl
  | n + 1, s => by
    unfold distanceLoop
    rw [closest2_swap, mapOk_bind]
    refine mapOk_congr fun c => ?_
    obtain ⟨c1, c2⟩ := c
    dsimp only
    have e : ∀ a, c2.map SP.swap ++ [SP.swap a] = (c2 ++ [a]).map SP.swap := by intro a; simp
    cases c1 with
    | none =>
      dsimp only [Option.map_none]
      rw [mapOk_bind]
      refine mapOk_congr fun a => ?_
      rw [e]
      exact distanceLoop_swap tolerance nan n _
    | some v =>
      dsimp only [Option.map_some]
      by_cases h0 : v = 0
      · rw [if_pos h0, if_pos (V2.neg_eq_zero'.mpr h0)]
      · rw [if_neg h0, if_neg (fun h => h0 (V2.neg_eq_zero'.mp h)), mink_swap left right (-v) hl hr, mapOk_bind]
        refine mapOk_congr fun a => ?_
        rw [List.getElem?_map, ofOption_map, mapOk_bind]
        refine mapOk_congr fun s0 => ?_
        have hv : ∀ p : SP (V2 ℝ), Inner.dot (SP.swap p).v (- -v) = Inner.dot p.v (-v) := fun p => V2.dot_neg' _ _
        have hm : mag (- -v) = mag (-v) := by
          unfold mag
          congr 1
          exact V2.dot_neg' _ _
        rw [hv, hv, hm]
        by_cases h1 : Inner.dot a.v (-v) - Inner.dot s0.v (-v) < tolerance
        · rw [if_pos h1, if_pos h1]
        · rw [if_neg h1, if_neg h1, e]
          exact distanceLoop_swap tolerance nan n _

/-- The state of the time of impact loop for the exchanged shapes. -/
def Impact.swap (st : Impact (V2 ℝ)) : Impact (V2 ℝ) := ⟨st.lambda, -st.normal, -st.rayOrigin, -st.v⟩

omit hl hr in
theorem subPoint_swap (p : SP (V2 ℝ)) (o : V2 ℝ) : (SP.swap p).subPoint (-o) = SP.swap (p.subPoint o) := by
  unfold SP.swap SP.subPoint
  dsimp only
  rw [sub_neg2]

theorem toiLoop_swap (tolerance : ℝ) (ray : V2 ℝ) :
    ∀ n s st, toiLoop closest2 tolerance right left (-ray) n (s.map SP.swap) (Impact.swap st) = (toiLoop closest2 tolerance left right ray n s st).mapOk (Option.map Impact.swap) := by
  intro n
  induction n with
  | zero =>
    intro s st
    unfold toiLoop
    have hv : Inner.dot (Impact.swap st).v (Impact.swap st).v = Inner.dot st.v st.v := V2.dot_neg' _ _
    rw [hv]
    split <;> rfl
  | succ n ih =>
    intro s st
    unfold toiLoop
    have hv : Inner.dot (Impact.swap st).v (Impact.swap st).v = Inner.dot st.v st.v := V2.dot_neg' _ _
    rw [hv]
    by_cases h : Inner.dot st.v st.v > tolerance
    · rw [if_pos h, if_pos h]
      dsimp only
      have hm : SP.fromMinkowski right left (-(Impact.swap st).v) = (SP.fromMinkowski left right (-st.v)).mapOk SP.swap := mink_swap left right (-st.v) hl hr
      rw [hm, mapOk_bind, bind_mapOk]
      refine mapOk_congr fun p => ?_
      have h1 : Inner.dot (Impact.swap st).v (SP.swap p).v = Inner.dot st.v p.v := V2.dot_neg' _ _
      have h2 : Inner.dot (Impact.swap st).v (-ray) = Inner.dot st.v ray := V2.dot_neg' _ _
      rw [h1, h2]
      have h3 : (Impact.swap st).lambda = st.lambda := rfl
      rw [h3]
      by_cases c1 : Inner.dot st.v p.v > st.lambda * Inner.dot st.v ray
      · rw [if_pos c1, if_pos c1]
        by_cases c2 : Inner.dot st.v ray > 0
        · rw [if_pos c2, if_pos c2]
          by_cases c3 : Inner.dot st.v p.v / Inner.dot st.v ray > 1
          · rw [if_pos c3, if_pos c3]; rfl
          · rw [if_neg c3, if_neg c3]
            have hneg : ∀ k : ℝ, -ray * k = -(ray * k) := by intro k; ext <;> simp
            rw [hneg, subPoint_swap]
            have := closest2_swap [p.subPoint (ray * (Inner.dot st.v p.v / Inner.dot st.v ray))]
            simp only [List.map_cons, List.map_nil] at this
            rw [this, mapOk_bind, bind_mapOk]
            refine mapOk_congr fun c => ?_
            rw [ofOption_map, mapOk_bind, bind_mapOk]
            refine mapOk_congr fun v => ?_
            exact ih _ ⟨_, _, _, _⟩
        · rw [if_neg c2, if_neg c2]; rfl
      · rw [if_neg c1, if_neg c1]
        have hs : (SP.swap p).subPoint (Impact.swap st).rayOrigin = SP.swap (p.subPoint st.rayOrigin) := subPoint_swap _ _
        have e : s.map SP.swap ++ [SP.swap (p.subPoint st.rayOrigin)] = (s ++ [p.subPoint st.rayOrigin]).map SP.swap := by simp
        rw [hs, e, closest2_swap, mapOk_bind, bind_mapOk]
        refine mapOk_congr fun c => ?_
        rw [ofOption_map, mapOk_bind, bind_mapOk]
        refine mapOk_congr fun v => ?_
        exact ih _ { st with v := v }
    · rw [if_neg h, if_neg h]; rfl

theorem gjkToi_swap (tolerance : ℝ) (fuel : Nat) (lStart lEnd rStart rEnd : V2 ℝ) (place place' : ℝ → V2 ℝ → V2 ℝ) :
    (gjkToi closest2 V2.normalize tolerance fuel right left rStart rEnd lStart lEnd place').mapOk (Option.map fun c => (c.normal, c.depth, c.toi)) =
      (gjkToi closest2 V2.normalize tolerance fuel left right lStart lEnd rStart rEnd place).mapOk (Option.map fun c => (-c.normal, c.depth, c.toi)) := by
  unfold gjkToi
  have hray : lEnd - lStart - (rEnd - rStart) = -(rEnd - rStart - (lEnd - lStart)) := by ext <;> simp
  rw [hray]
  dsimp only
  rw [mink_swap left right _ hl hr, mapOk_bind, bind_mapOk, bind_mapOk]
  refine mapOk_congr fun p => ?_
  have z : (0 : V2 ℝ) = -0 := by ext <;> simp
  have h := toiLoop_swap hl hr tolerance (rEnd - rStart - (lEnd - lStart)) fuel [] ⟨0, 0, 0, p.v⟩
  have hst : Impact.swap (⟨0, 0, 0, p.v⟩ : Impact (V2 ℝ)) = ⟨0, 0, 0, (SP.swap p).v⟩ := by
    unfold Impact.swap; rw [← z]; rfl
  rw [hst, List.map_nil] at h
  rw [h, mapOk_bind, bind_mapOk, bind_mapOk]
  refine mapOk_congr fun o => ?_
  cases o with
  | none => rfl
  | some st =>
    show Res.ok (some (-(V2.normalize (-st.normal)), mag (-st.v), st.lambda)) = Res.ok (some (- -(V2.normalize st.normal), mag st.v, st.lambda))
    have hm : mag (-st.v) = mag st.v := by
      unfold mag
      congr 1
      exact V2.dot_neg' _ _
    rw [normalize_neg2, hm]
end toi

/-! ## Primitives -/

/-- The support function of a 2D primitive as constructed never runs on for ever (in any direction). -/
theorem prim2_no_timeout (s : Prim2) (hs : s.Ok) (D : Dec2 ℝ) (d : V2 ℝ) : s.supportPoint D.tr d ≠ .timeout := by
  have key : ∀ loc : V2 ℝ → V2 ℝ, support loc D.tr d ≠ .timeout := by
    intro loc h
    unfold support at h
    cases hi : D.tr.invVector d with
    | none => rw [hi] at h; cases h
    | some e => rw [hi] at h; cases h
  cases s with
  | particle => exact nofun
  | line l => exact key _
  | circle s =>
    intro h
    have h : supportRound _ D.tr d = .timeout := h
    unfold supportRound at h
    cases hi : D.tr.invVector d with
    | none => rw [hi] at h; cases h
    | some e =>
      rw [hi, Res.ofOption_some, Res.bind_ok] at h
      split at h <;> cases h
  | rectangle s => exact key _
  | square s => exact key _
  | polygon s =>
    show s.supportPoint _ d ≠ _
    unfold Polygon.supportPoint
    rw [if_pos hs.2]
    exact key _

section prim
variable (s t : Prim2) (hs : s.Ok) (ht : t.Ok) (D E : Dec2 ℝ)
include hs ht

/-- C89 in 2D, collision test: exchanging the shapes does not change the answer, with any iteration limit, when the two placements put the origin at different points. -/
theorem c89_collision_2d_partial (hp : D.tr.point 0 ≠ E.tr.point 0) (n : Nat) : ∀ epa epa' : List (SP (V2 ℝ)) → Res (Option (Contact (V2 ℝ) ℝ)),
    gjkIntersection reduce2 n epa' .collisionOnly (t.supportPoint E.tr) (s.supportPoint D.tr) (E.tr.point 0) (D.tr.point 0) =
      gjkIntersection reduce2 n epa .collisionOnly (s.supportPoint D.tr) (t.supportPoint E.tr) (D.tr.point 0) (E.tr.point 0) := by
  intro epa epa'
  unfold gjkIntersection
  rw [gjkIntersect_swap (prim2_no_timeout s hs D) (prim2_no_timeout t ht E) n hp, mapOk_bind]
  refine mapOk_congr fun o => ?_
  cases o <;> rfl

/-- C89 in 2D, full resolution: exchanging the shapes gives a contact in the same cases, with the opposite normal and the same depth. -/
theorem c89_full_2d_partial (hD : D.rot.Orthogonal) (hE : E.rot.Orthogonal) (hDs : D.scale ≠ 0) (hEs : E.scale ≠ 0) (hp : D.tr.point 0 ≠ E.tr.point 0)
    {tolerance : ℝ} (htol : 0 < tolerance) (n m : Nat) :
    ∃ f f', gjkIntersection reduce2 n (epa2 tolerance m (s.supportPoint D.tr) (t.supportPoint E.tr)) .fullResolution (s.supportPoint D.tr) (t.supportPoint E.tr)
        (D.tr.point 0) (E.tr.point 0) = .ok f ∧
      gjkIntersection reduce2 n (epa2 tolerance m (t.supportPoint E.tr) (s.supportPoint D.tr)) .fullResolution (t.supportPoint E.tr) (s.supportPoint D.tr)
        (E.tr.point 0) (D.tr.point 0) = .ok f' ∧
      (f' = none ↔ f = none) ∧ ∀ c c', f = some c → f' = some c' → c'.normal = -c.normal ∧ c'.depth = c.depth := by
  obtain ⟨-, f, -, h, -⟩ := c86_prim2 s t hs ht D E hD hE hDs hEs htol n m
  refine ⟨f, ?_⟩
  unfold gjkIntersection at h ⊢
  rw [gjkIntersect_swap (prim2_no_timeout s hs D) (prim2_no_timeout t ht E) n hp]
  cases ho : gjkIntersect reduce2 n (s.supportPoint D.tr) (t.supportPoint E.tr) (D.tr.point 0) (E.tr.point 0) with
  | panic => rw [ho] at h; cases h
  | timeout => rw [ho] at h; cases h
  | ok o =>
    rw [ho] at h
    cases o with
    | none =>
      cases h
      exact ⟨none, rfl, rfl, Iff.rfl, nofun⟩
    | some x =>
      have h' : epa2 tolerance m (s.supportPoint D.tr) (t.supportPoint E.tr) x = .ok f := h
      obtain ⟨o', e1, e2, e3⟩ := epa2_swap (prim2_no_timeout s hs D) (prim2_no_timeout t ht E) tolerance m x h'
      exact ⟨o', h', e1, e2, e3⟩

/-- C89 in 2D, distance. `nan` is the support point found for a NaN direction. -/
theorem c89_distance_2d_partial (hp : D.tr.point 0 ≠ E.tr.point 0) (tolerance : ℝ) (n : Nat) (nan : SP (V2 ℝ)) :
    gjkDistance closest2 tolerance n (t.supportPoint E.tr) (s.supportPoint D.tr) (.ok ⟨-nan.v, nan.supB, nan.supA⟩) (E.tr.point 0) (D.tr.point 0) =
      gjkDistance closest2 tolerance n (s.supportPoint D.tr) (t.supportPoint E.tr) (.ok nan) (D.tr.point 0) (E.tr.point 0) := by
  have hl := prim2_no_timeout s hs D
  have hr := prim2_no_timeout t ht E
  have hd : ∀ inst inst' : DecidableEq (V2 ℝ), @firstDirection (V2 ℝ) ℝ _ _ inst _ (E.tr.point 0) (D.tr.point 0) = -@firstDirection (V2 ℝ) ℝ _ _ inst' _ (D.tr.point 0) (E.tr.point 0) := by
    intro inst inst'
    have h0 : ∀ a b : V2 ℝ, a ≠ b → a - b ≠ 0 := by
      intro a b h e; apply h
      have h1 := congrArg V2.x e
      have h2 := congrArg V2.y e
      simp at h1 h2
      ext <;> linarith
    unfold firstDirection
    dsimp only
    rw [if_neg (h0 _ _ hp), if_neg (h0 _ _ hp.symm)]
    ext <;> simp
  unfold gjkDistance
  rw [hd _ (fun a b => Classical.propDecidable (a = b))]
  dsimp only
  rw [mink_swap _ _ _ hl hr, mapOk_bind]
  refine mapOk_congr fun a => ?_
  rw [mink_swap _ _ _ hl hr, mapOk_bind]
  refine mapOk_congr fun b => ?_
  exact distanceLoop_swap hl hr tolerance (.ok nan) n [a, b]

/-- C89 in 2D, time of impact, for any start and end placements: exchanging the moving shapes gives the same time and depth and the opposite normal, and none, a panic or an endless run in
the same cases. -/
theorem c89_toi_2d (D' E' : Dec2 ℝ) (tolerance : ℝ) (fuel : Nat) :
    (gjkToi closest2 V2.normalize tolerance fuel (t.supportPoint E.tr) (s.supportPoint D.tr) (E.tr.point 0) (E'.tr.point 0) (D.tr.point 0) (D'.tr.point 0)
        (fun a p => (Dec2.translationInterpolate D D' a).tr.point p)).mapOk (Option.map fun c => (c.normal, c.depth, c.toi)) =
      (gjkToi closest2 V2.normalize tolerance fuel (s.supportPoint D.tr) (t.supportPoint E.tr) (D.tr.point 0) (D'.tr.point 0) (E.tr.point 0) (E'.tr.point 0)
        (fun a p => (Dec2.translationInterpolate E E' a).tr.point p)).mapOk (Option.map fun c => (-c.normal, c.depth, c.toi)) :=
  gjkToi_swap (prim2_no_timeout s hs D) (prim2_no_timeout t ht E) tolerance fuel _ _ _ _ _ _

/-- When the origins coincide the two orders start in the same direction and may differ, but only for shapes that just touch: if one order reports a collision and the other none, the
shapes share a point and a line separates them. -/
theorem c89_centred_2d (hsc : ∀ c, s ≠ .circle c) (htc : ∀ c, t ≠ .circle c) (hD : D.rot.Orthogonal) (hE : E.rot.Orthogonal) (hDs : D.scale ≠ 0) (hEs : E.scale ≠ 0) :
    ∃ o o', gjkIntersect reduce2 100 (s.supportPoint D.tr) (t.supportPoint E.tr) (D.tr.point 0) (E.tr.point 0) = .ok o ∧
      gjkIntersect reduce2 100 (t.supportPoint E.tr) (s.supportPoint D.tr) (E.tr.point 0) (D.tr.point 0) = .ok o' ∧
      (o.isSome ≠ o'.isSome → (∃ p, Image D.tr s.Points p ∧ Image E.tr t.Points p) ∧ Separated2 (Image D.tr s.Points) (Image E.tr t.Points)) := by
  obtain ⟨o, h1, h2, h3⟩ := c65_prim2 s t hs ht hsc htc D E hD hE hDs hEs
  obtain ⟨o', g1, g2, g3⟩ := c65_prim2 t s ht hs htc hsc E D hE hD hEs hDs
  refine ⟨o, o', h1, g1, fun hne => ?_⟩
  cases o with
  | none =>
    cases o' with
    | none => exact absurd rfl hne
    | some x =>
      obtain ⟨p, q1, q2⟩ := g2 rfl
      exact ⟨⟨p, q2, q1⟩, h3 rfl⟩
  | some x =>
    cases o' with
    | none =>
      obtain ⟨d, hd, h⟩ := g3 rfl
      refine ⟨h2 rfl, -d, fun e => hd (V2.neg_eq_zero'.mp e), fun x y hx hy => ?_⟩
      have := h y x hy hx
      simp only [V2.dot, V2.neg_x, V2.neg_y] at this ⊢
      linarith
    | some y => exact absurd rfl hne
end prim
end

/-- C89 is false in 3D: two cubes of side 4, the second turned by a quarter about the z axis and placed at `(-1, 1, 0)`, share a ball of radius 1 and more, and GJK reports a collision when
asked about the first and the second, and none when asked about the second and the first. -/
theorem c89_false :
    (∃ x, gjkIntersect reduce3 100 ((Cuboid.new 4 4 4).supportPoint (⟨1, ⟨⟨1, 0, 0⟩, ⟨0, 1, 0⟩, ⟨0, 0, 1⟩⟩, ⟨0, 0, 0⟩⟩ : Dec3 ℚ).tr)
      ((Cuboid.new 4 4 4).supportPoint (⟨1, ⟨⟨0, 1, 0⟩, ⟨-1, 0, 0⟩, ⟨0, 0, 1⟩⟩, ⟨-1, 1, 0⟩⟩ : Dec3 ℚ).tr) ⟨0, 0, 0⟩ ⟨-1, 1, 0⟩ = .ok (some x)) ∧
    gjkIntersect reduce3 100 ((Cuboid.new 4 4 4).supportPoint (⟨1, ⟨⟨0, 1, 0⟩, ⟨-1, 0, 0⟩, ⟨0, 0, 1⟩⟩, ⟨-1, 1, 0⟩⟩ : Dec3 ℚ).tr)
      ((Cuboid.new 4 4 4).supportPoint (⟨1, ⟨⟨1, 0, 0⟩, ⟨0, 1, 0⟩, ⟨0, 0, 1⟩⟩, ⟨0, 0, 0⟩⟩ : Dec3 ℚ).tr) ⟨-1, 1, 0⟩ ⟨0, 0, 0⟩ = .ok none ∧
    ∀ x y z : ℚ, x * x + y * y + z * z ≤ 1 →
      Image (⟨1, ⟨⟨1, 0, 0⟩, ⟨0, 1, 0⟩, ⟨0, 0, 1⟩⟩, ⟨0, 0, 0⟩⟩ : Dec3 ℚ).tr (InBox 4 4 4) ⟨x, y, z⟩ ∧
      Image (⟨1, ⟨⟨0, 1, 0⟩, ⟨-1, 0, 0⟩, ⟨0, 0, 1⟩⟩, ⟨-1, 1, 0⟩⟩ : Dec3 ℚ).tr (InBox 4 4 4) ⟨x, y, z⟩ := by
  refine ⟨?_, by decide +kernel, ?_⟩
  · have h : (match gjkIntersect reduce3 100 ((Cuboid.new 4 4 4).supportPoint (⟨1, ⟨⟨1, 0, 0⟩, ⟨0, 1, 0⟩, ⟨0, 0, 1⟩⟩, ⟨0, 0, 0⟩⟩ : Dec3 ℚ).tr)
      ((Cuboid.new 4 4 4).supportPoint (⟨1, ⟨⟨0, 1, 0⟩, ⟨-1, 0, 0⟩, ⟨0, 0, 1⟩⟩, ⟨-1, 1, 0⟩⟩ : Dec3 ℚ).tr) ⟨0, 0, 0⟩ ⟨-1, 1, 0⟩ with | .ok (some _) => true | _ => false) = true := by
      decide +kernel
    split at h
    · exact ⟨_, by assumption⟩
    · cases h
  · intro x y z h
    have hx : -1 ≤ x ∧ x ≤ 1 := ⟨by nlinarith [mul_self_nonneg y, mul_self_nonneg z], by nlinarith [mul_self_nonneg y, mul_self_nonneg z]⟩
    have hy : -1 ≤ y ∧ y ≤ 1 := ⟨by nlinarith [mul_self_nonneg x, mul_self_nonneg z], by nlinarith [mul_self_nonneg x, mul_self_nonneg z]⟩
    have hz : -1 ≤ z ∧ z ≤ 1 := ⟨by nlinarith [mul_self_nonneg x, mul_self_nonneg y], by nlinarith [mul_self_nonneg x, mul_self_nonneg y]⟩
    constructor
    · refine ⟨⟨x, y, z⟩, ⟨⟨?_, ?_⟩, ⟨?_, ?_⟩, ?_, ?_⟩, ?_⟩
      all_goals first | (simp only; linarith) | (ext <;> simp [Dec3.tr, M3.apply])
    · refine ⟨⟨y - 1, -1 - x, z⟩, ⟨⟨?_, ?_⟩, ⟨?_, ?_⟩, ?_, ?_⟩, ?_⟩
      all_goals first | (simp only; linarith) | (ext <;> simp [Dec3.tr, M3.apply])

/-- The conditions of the 2D theorems are met by a square and a turned and scaled rectangle at another place. -/
example : (Prim2.rectangle (Rectangle.new 10 10)).Ok ∧ (Prim2.square (Square.new 3)).Ok ∧ (⟨2, ⟨⟨0, 1⟩, ⟨-1, 0⟩⟩, ⟨7, 1⟩⟩ : Dec2 ℝ).rot.Orthogonal ∧
    (⟨2, ⟨⟨0, 1⟩, ⟨-1, 0⟩⟩, ⟨7, 1⟩⟩ : Dec2 ℝ).tr.point 0 ≠ (⟨1, ⟨⟨1, 0⟩, ⟨0, 1⟩⟩, ⟨0, 0⟩⟩ : Dec2 ℝ).tr.point 0 := by
  refine ⟨⟨10, 10, by norm_num, by norm_num, rfl⟩, ⟨3, by norm_num, rfl⟩, by simp [M2.Orthogonal, V2.dot], ?_⟩
  intro h
  have := congrArg V2.x h
  simp [Dec2.tr, M2.apply] at this
end Verif.Minkowski
