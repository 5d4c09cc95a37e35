import Verif.Minkowski.Toi
import Verif.Geom.InterpolateBasis
/-!
# Distance and time of impact in 3D fail on boxes (C84, C85)

`intersection_time_of_impact` goes round in a circle for ever, or panics, and `distance` panics, on plain boxes. The runs are over the real numbers
(`closest3` takes square roots), so they are computed with rational numbers by square-root-free forms of the same functions, here proved equal,
and carried over to the reals.
-/
namespace Verif.Minkowski
open Verif Geom Primitive
set_option linter.unusedSectionVars false

/-! ## Square-root-free forms -/
section
variable {K : Type} [Field K] [LinearOrder K] [IsStrictOrderedRing K]

/-- `closestOnEdge3` without the square root -/
def edgeQ (a b : V3 K) : Option (V3 K) :=
  let l := b - a
  if l = 0 then none
  else
    let t := -(a.dot l)
    some (if t < 0 then a else if l.dot l < t then b else a + l * (t / l.dot l))

/-- `barycentric` over any field -/
def baryQ (p a b c : V3 K) : K × K × K :=
  let v0 := b - a
  let v1 := c - a
  let v2 := p - a
  let d00 := v0.dot v0
  let d01 := v0.dot v1
  let d11 := v1.dot v1
  let d20 := v2.dot v0
  let d21 := v2.dot v1
  let inv := 1 / (d00 * d11 - d01 * d01)
  let v := (d11 * d20 - d01 * d21) * inv
  let w := (d00 * d21 - d01 * d20) * inv
  (1 - v - w, v, w)

/-- `closestOnFace` without the square root; `timeout` stands for a ray parallel to the face, which is left out -/
def faceQ (a b c n : V3 K) : Res (V3 K) :=
  let N := (b - a).cross (c - a)
  if N = 0 then .panic
  else if n.dot N = 0 then .timeout
  else
    let t := -(a.dot N / n.dot N)
    if t < 0 then .ok 0
    else
      let p := -n * t
      let u := baryQ p a b c
      if 0 ≤ u.1 ∧ u.1 ≤ 1 ∧ 0 ≤ u.2.1 ∧ u.2.1 ≤ 1 ∧ 0 ≤ u.2.2 ∧ u.2.2 ≤ 1 then .ok p else .panic

/-- `closest3` without square roots -/
def closestQ (simplex : List (SP (V3 K))) : Res (Option (V3 K) × List (SP (V3 K))) :=
  let r := reduce3 simplex 0
  if r.1 then .ok (some r.2.2, r.2.1)
  else
    match r.2.1 with
    | [s0] => .ok (some s0.v, [s0])
    | [s0, s1] => .ok (edgeQ s1.v s0.v, [s0, s1])
    | s0 :: s1 :: s2 :: rest =>
      match faceQ s2.v s1.v s0.v r.2.2 with
      | .ok p => .ok (some p, s0 :: s1 :: s2 :: rest)
      | .panic => .panic
      | .timeout => .timeout
    | [] => .panic

/-- State of the loop of time of impact: the simplex, `lambda`, `normal`, `ray_origin`, `v`. -/
structure Slide (K : Type) where
  s : List (SP (V3 K))
  lambda : K
  normal : V3 K
  o : V3 K
  v : V3 K
  deriving DecidableEq

/-- One iteration of time of impact that goes on, with `v` not shorter than the root of `m`; `timeout` stands for an iteration that returns. -/
def slideStep (left right : V3 K → Res (V3 K)) (ray : V3 K) (m : K) (S : Slide K) : Res (Slide K) :=
  match SP.fromMinkowski left right (-S.v) with
  | .panic => .panic
  | .timeout => .timeout
  | .ok p =>
    if S.v.dot S.v < m then .timeout
    else if S.v.dot p.v > S.lambda * S.v.dot ray then
      if S.v.dot ray > 0 then
        if S.v.dot p.v / S.v.dot ray > 1 then .timeout
        else
          match closestQ [p.subPoint (ray * (S.v.dot p.v / S.v.dot ray))] with
          | .ok (some v, s) => .ok ⟨s, S.v.dot p.v / S.v.dot ray, -S.v, ray * (S.v.dot p.v / S.v.dot ray), v⟩
          | .timeout => .timeout
          | _ => .panic
      else .timeout
    else
      match closestQ (S.s ++ [p.subPoint S.o]) with
      | .ok (some v, s) => .ok ⟨s, S.lambda, S.normal, S.o, v⟩
      | .timeout => .timeout
      | _ => .panic

/-- That many iterations. -/
def slide (left right : V3 K → Res (V3 K)) (ray : V3 K) (m : K) : Nat → Slide K → Res (Slide K)
  | 0, S => .ok S
  | n + 1, S =>
    match slideStep left right ray m S with
    | .ok S' => slide left right ray m n S'
    | .panic => .panic
    | .timeout => .timeout

/-- That many iterations of `distance` in which the new point is better by `m`; `timeout` stands for an iteration that returns. -/
def approach (left right : V3 K → Res (V3 K)) (m : K) : Nat → List (SP (V3 K)) → Res (List (SP (V3 K)))
  | 0, s => .ok s
  | n + 1, s =>
    match closestQ s with
    | .panic => .panic
    | .timeout => .timeout
    | .ok (none, _) => .timeout
    | .ok (some v, s) =>
      if v = 0 then .timeout
      else
        match SP.fromMinkowski left right (-v), s with
        | .ok p, s0 :: _ => if p.v.dot (-v) - s0.v.dot (-v) < m then .timeout else approach left right m n (s ++ [p])
        | _, _ => .panic
end

/-! ## They are the model -/
noncomputable section
open Classical

theorem edgeQ_eq (a b : V3 ℝ) : closestOnEdge3 a b = edgeQ a b := by
  unfold closestOnEdge3 edgeQ
  dsimp only
  by_cases h0 : b - a = 0
  · rw [if_pos h0, if_pos h0]
  rw [if_neg h0, if_neg h0]
  have hn := V3.norm_pos h0
  have hnn := V3.norm_sq (b - a)
  set n := (b - a).norm with hnd
  have e : ((0 : V3 ℝ) - a).dot (b - a).normalize = -(a.dot (b - a)) / n := by
    simp only [V3.normalize, ← hnd, V3.dot, V3.sub_x, V3.sub_y, V3.sub_z, V3.mul_x, V3.mul_y, V3.mul_z, V3.zero_x, V3.zero_y, V3.zero_z]
    field_simp; ring
  rw [e]
  clear_value n
  congr 1
  have hlt : -(a.dot (b - a)) / n < 0 ↔ -(a.dot (b - a)) < 0 := by
    rw [div_lt_iff₀ hn, zero_mul]
  by_cases h1 : -(a.dot (b - a)) < 0
  · rw [if_pos (hlt.2 h1), if_pos h1]
  rw [if_neg (fun h => h1 (hlt.1 h)), if_neg h1]
  have h1 := not_lt.1 h1
  have hgt : -(a.dot (b - a)) / n * (-(a.dot (b - a)) / n) > (b - a).dot (b - a) ↔ (b - a).dot (b - a) < -(a.dot (b - a)) := by
    rw [← hnn]
    have : -(a.dot (b - a)) / n * (-(a.dot (b - a)) / n) > n * n ↔ n < -(a.dot (b - a)) / n := by
      have : 0 ≤ -(a.dot (b - a)) / n := by positivity
      constructor
      · intro h; nlinarith
      · intro h; nlinarith
    rw [this, lt_div_iff₀ hn]
  by_cases h2 : (b - a).dot (b - a) < -(a.dot (b - a))
  · rw [if_pos (hgt.2 h2), if_pos h2]
  rw [if_neg (fun h => h2 (hgt.1 h)), if_neg h2, ← hnn]
  ext <;> simp only [V3.normalize, V3.add_x, V3.add_y, V3.add_z, V3.mul_x, V3.mul_y, V3.mul_z] <;> rw [← hnd] <;> field_simp

theorem baryQ_eq (p a b c : V3 ℝ) : baryQ p a b c = barycentric p a b c := rfl

theorem faceQ_eq {a b c n : V3 ℝ} (h : faceQ a b c n ≠ .timeout) : closestOnFace a b c n = faceQ a b c n := by
  unfold faceQ at h ⊢
  unfold closestOnFace Plane.fromPoints
  dsimp only at h ⊢
  by_cases h0 : (b - a).cross (c - a) = 0
  · rw [if_pos h0, if_pos h0]; rfl
  rw [if_neg h0] at h
  rw [if_neg h0, if_neg h0, Res.ofOption_some, Res.bind_ok]
  by_cases h1 : n.dot ((b - a).cross (c - a)) = 0
  · rw [if_pos h1] at h; exact absurd rfl h
  rw [if_neg h1]
  clear h
  have hN := V3.norm_pos h0
  have hNN := V3.norm_sq ((b - a).cross (c - a))
  set N := (b - a).cross (c - a) with hNd
  set k := N.norm with hk
  have hnrm : ∀ w : V3 ℝ, w.dot N.normalize = w.dot N / k := by
    intro w
    simp only [V3.normalize, ← hk, V3.dot, V3.mul_x, V3.mul_y, V3.mul_z]
    field_simp
  have hneg : (-n).dot N.normalize = -(n.dot N) / k := by
    rw [hnrm]; simp only [V3.dot, V3.neg_x, V3.neg_y, V3.neg_z]; ring
  have hd : (-n).dot (Plane.new N.normalize (-a.dot N.normalize)).n ≠ 0 := by
    show (-n).dot N.normalize ≠ 0
    rw [hneg]
    exact div_ne_zero (neg_ne_zero.2 h1) hN.ne'
  have ht : -((Plane.new N.normalize (-a.dot N.normalize)).d + (0 : V3 ℝ).dot (Plane.new N.normalize (-a.dot N.normalize)).n) /
      (-n).dot (Plane.new N.normalize (-a.dot N.normalize)).n = -(a.dot N / n.dot N) := by
    show -(-a.dot N.normalize + (0 : V3 ℝ).dot N.normalize) / (-n).dot N.normalize = _
    rw [hneg, hnrm, show (0 : V3 ℝ).dot N.normalize = 0 by simp [V3.dot]]
    field_simp
    ring
  unfold Plane.intersectionRay
  rw [rayT_fin _ _ _ hd, ht, atE3]
  by_cases h2 : -(a.dot N / n.dot N) < 0
  · rw [if_pos h2, if_pos (by simpa [Ext.lt] using h2)]
    rfl
  · rw [if_neg h2, if_neg (by simpa [Ext.lt] using h2)]
    have hp : (Ray3.at ⟨0, -n⟩ (-(a.dot N / n.dot N)) : V3 ℝ) = -n * (-(a.dot N / n.dot N)) := by
      ext <;> simp [Ray3.at]
    rw [hp]
    set p := -n * (-(a.dot N / n.dot N)) with hpd
    show (if inRange (barycentric p a b c).1 ∧ inRange (barycentric p a b c).2.1 ∧ inRange (barycentric p a b c).2.2 then (Pure.pure p : Res (V3 ℝ)) else .panic) = _
    rw [baryQ_eq]
    by_cases hr : inRange (barycentric p a b c).1 ∧ inRange (barycentric p a b c).2.1 ∧ inRange (barycentric p a b c).2.2
    · rw [if_pos hr, if_pos (by unfold inRange at hr; tauto)]; rfl
    · rw [if_neg hr, if_neg (by unfold inRange at hr; tauto)]

theorem closestQ_eq {s : List (SP (V3 ℝ))} (h : closestQ s ≠ .timeout) : closest3 s = closestQ s := by
  have hr : ∀ inst : DecidableEq (V3 ℝ), reduce3 s 0 = reduce3 s 0 := fun _ => rfl
  unfold closestQ at h ⊢
  unfold closest3
  dsimp only at h ⊢
  split
  · rfl
  · rename_i h1
    rw [if_neg h1] at h
    generalize reduce3 s 0 = r at h ⊢
    obtain ⟨b, t, d⟩ := r
    dsimp only at h ⊢
    rcases t with _ | ⟨s0, _ | ⟨s1, _ | ⟨s2, rest⟩⟩⟩
    · rfl
    · rfl
    · dsimp only; rw [edgeQ_eq]
    · dsimp only at h ⊢
      rw [faceQ_eq (by intro hf; rw [hf] at h; exact h rfl)]
      cases faceQ s2.v s1.v s0.v d <;> rfl

/-! ### Time of impact -/
section
variable {left right : V3 ℝ → Res (V3 ℝ)} {ray : V3 ℝ} {m tolerance : ℝ}

/-- The state of the model. -/
def Slide.impact (S : Slide ℝ) : Impact (V3 ℝ) := ⟨S.lambda, S.normal, S.o, S.v⟩

theorem slideStep_ok (hm : tolerance < m) {S S' : Slide ℝ} (h : slideStep left right ray m S = .ok S') (fuel : Nat) :
    toiLoop closest3 tolerance left right ray (fuel + 1) S.s S.impact = toiLoop closest3 tolerance left right ray fuel S'.s S'.impact ∧
    toiLoop closest3 tolerance left right ray 0 S.s S.impact = .timeout := by
  unfold slideStep at h
  cases hp : SP.fromMinkowski left right (-S.v) with
  | panic => rw [hp] at h; cases h
  | timeout => rw [hp] at h; cases h
  | ok p =>
    rw [hp] at h
    dsimp only at h
    split at h
    · cases h
    rename_i hv
    have hv : Inner.dot S.impact.v S.impact.v > tolerance := lt_of_lt_of_le hm (not_lt.1 hv)
    refine ⟨?_, by rw [toiLoop, if_pos hv]⟩
    rw [toiLoop, if_pos hv]
    dsimp only
    rw [show SP.fromMinkowski left right (-S.impact.v) = .ok p from hp, Res.bind_ok]
    split at h
    · rename_i h1
      rw [if_pos (show Inner.dot S.impact.v p.v > S.impact.lambda * Inner.dot S.impact.v ray from h1)]
      split at h
      · rename_i h2
        rw [if_pos (show Inner.dot S.impact.v ray > 0 from h2)]
        split at h
        · cases h
        rename_i h3
        rw [if_neg (show ¬ Inner.dot S.impact.v p.v / Inner.dot S.impact.v ray > 1 from h3)]
        split at h
        · rename_i v s hc
          have hc' := closestQ_eq (s := [p.subPoint (ray * (S.v.dot p.v / S.v.dot ray))]) (by rw [hc]; nofun)
          rw [hc] at hc'
          rw [show closest3 [p.subPoint (ray * (Inner.dot S.impact.v p.v / Inner.dot S.impact.v ray))] = _ from hc', Res.bind_ok]
          cases h
          rfl
        · cases h
        · cases h
      · cases h
    · rename_i h1
      rw [if_neg (show ¬ Inner.dot S.impact.v p.v > S.impact.lambda * Inner.dot S.impact.v ray from h1)]
      split at h
      · rename_i v s hc
        have hc' := closestQ_eq (s := S.s ++ [p.subPoint S.o]) (by rw [hc]; nofun)
        rw [hc] at hc'
        rw [show closest3 (S.s ++ [p.subPoint S.impact.rayOrigin]) = _ from hc', Res.bind_ok]
        cases h
        rfl
      · cases h
      · cases h

theorem slideStep_panic (hm : tolerance < m) {S : Slide ℝ} (h : slideStep left right ray m S = .panic) (hp : SP.fromMinkowski left right (-S.v) ≠ .panic) (fuel : Nat) :
    toiLoop closest3 tolerance left right ray (fuel + 1) S.s S.impact = .panic := by
  unfold slideStep at h
  cases hp' : SP.fromMinkowski left right (-S.v) with
  | panic => exact absurd hp' hp
  | timeout => rw [hp'] at h; cases h
  | ok p =>
    rw [hp'] at h
    dsimp only at h
    split at h
    · cases h
    rename_i hv
    have hv : Inner.dot S.impact.v S.impact.v > tolerance := lt_of_lt_of_le hm (not_lt.1 hv)
    rw [toiLoop, if_pos hv]
    dsimp only
    rw [show SP.fromMinkowski left right (-S.impact.v) = .ok p from hp', Res.bind_ok]
    have key : ∀ s, (∀ v t, closestQ s ≠ .ok (some v, t)) → closestQ s ≠ .timeout → closest3 s = .panic ∨ ∃ t, closest3 s = .ok (none, t) := by
      intro s hs hne
      rw [closestQ_eq hne]
      cases hc : closestQ s with
      | panic => exact .inl rfl
      | timeout => exact absurd hc hne
      | ok c =>
        obtain ⟨c, s'⟩ := c
        cases c with
        | none => exact .inr ⟨s', rfl⟩
        | some v => exact absurd hc (hs v s')
    split at h
    · rename_i h1
      rw [if_pos (show Inner.dot S.impact.v p.v > S.impact.lambda * Inner.dot S.impact.v ray from h1)]
      split at h
      · rename_i h2
        rw [if_pos (show Inner.dot S.impact.v ray > 0 from h2)]
        split at h
        · cases h
        rename_i h3
        rw [if_neg (show ¬ Inner.dot S.impact.v p.v / Inner.dot S.impact.v ray > 1 from h3)]
        have hk : closest3 [p.subPoint (ray * (S.v.dot p.v / S.v.dot ray))] = .panic ∨ ∃ t, closest3 [p.subPoint (ray * (S.v.dot p.v / S.v.dot ray))] = .ok (none, t) := by
          split at h
          · cases h
          · cases h
          · rename_i hx hy
            exact key _ (fun v t e => hx v t e) (fun e => hy e)
        rcases hk with hk | ⟨t, hk⟩
        · rw [show closest3 [p.subPoint (ray * (Inner.dot S.impact.v p.v / Inner.dot S.impact.v ray))] = _ from hk]; rfl
        · rw [show closest3 [p.subPoint (ray * (Inner.dot S.impact.v p.v / Inner.dot S.impact.v ray))] = _ from hk]; rfl
      · cases h
    · rename_i h1
      rw [if_neg (show ¬ Inner.dot S.impact.v p.v > S.impact.lambda * Inner.dot S.impact.v ray from h1)]
      have hk : closest3 (S.s ++ [p.subPoint S.o]) = .panic ∨ ∃ t, closest3 (S.s ++ [p.subPoint S.o]) = .ok (none, t) := by
        split at h
        · cases h
        · cases h
        · rename_i hx hy
          exact key _ (fun v t e => hx v t e) (fun e => hy e)
      rcases hk with hk | ⟨t, hk⟩
      · rw [show closest3 (S.s ++ [p.subPoint S.impact.rayOrigin]) = _ from hk]; rfl
      · rw [show closest3 (S.s ++ [p.subPoint S.impact.rayOrigin]) = _ from hk]; rfl

theorem slide_ok (hm : tolerance < m) {n : Nat} {S S' : Slide ℝ} (h : slide left right ray m n S = .ok S') (fuel : Nat) :
    toiLoop closest3 tolerance left right ray (n + fuel) S.s S.impact = toiLoop closest3 tolerance left right ray fuel S'.s S'.impact := by
  induction n generalizing S with
  | zero => cases h; rw [Nat.zero_add]
  | succ n ih =>
    unfold slide at h
    split at h
    · rename_i S1 h1
      rw [show n + 1 + fuel = (n + fuel) + 1 by omega, (slideStep_ok hm h1 _).1]
      exact ih h
    · cases h
    · cases h

theorem slide_less (hm : tolerance < m) {n : Nat} {S S' : Slide ℝ} (h : slide left right ray m n S = .ok S') {fuel : Nat} (hf : fuel < n) :
    toiLoop closest3 tolerance left right ray fuel S.s S.impact = .timeout := by
  induction n generalizing S fuel with
  | zero => omega
  | succ n ih =>
    unfold slide at h
    split at h
    · rename_i S1 h1
      cases fuel with
      | zero => exact (slideStep_ok hm h1 0).2
      | succ fuel => rw [(slideStep_ok hm h1 _).1]; exact ih h (by omega)
    · cases h
    · cases h

/-- A state that is reached again: the loop does not end. -/
theorem slide_cycle (hm : tolerance < m) {n : Nat} (hn : 0 < n) {S : Slide ℝ} (h : slide left right ray m n S = .ok S) (fuel : Nat) :
    toiLoop closest3 tolerance left right ray fuel S.s S.impact = .timeout := by
  induction fuel using Nat.strong_induction_on with
  | _ fuel ih =>
    by_cases hf : fuel < n
    · exact slide_less hm h hf
    · rw [show fuel = n + (fuel - n) by omega, slide_ok hm h]
      exact ih _ (by omega)

theorem slide_panic (hm : tolerance < m) (hs : ∀ d, SP.fromMinkowski left right d ≠ .panic) {n : Nat} {S : Slide ℝ} (h : slide left right ray m n S = .panic)
    {fuel : Nat} (hf : n ≤ fuel) : toiLoop closest3 tolerance left right ray fuel S.s S.impact = .panic := by
  induction n generalizing S fuel with
  | zero => cases h
  | succ n ih =>
    obtain ⟨fuel, rfl⟩ : ∃ k, fuel = k + 1 := ⟨fuel - 1, by omega⟩
    unfold slide at h
    split at h
    · rename_i S1 h1
      rw [(slideStep_ok hm h1 _).1]
      exact ih h (by omega)
    · rename_i h1
      exact slideStep_panic hm h1 (hs _) fuel
    · cases h

/-! ### Distance -/

theorem approach_panic (hm : tolerance ≤ m) (nan : Res (SP (V3 ℝ))) {n : Nat} {s : List (SP (V3 ℝ))} (h : approach left right m n s = .panic)
    (hs : ∀ d, ∃ p, SP.fromMinkowski left right d = .ok p) {N : Nat} (hN : n ≤ N) : distanceLoop closest3 tolerance left right nan N s = .panic := by
  induction n generalizing s N with
  | zero => cases h
  | succ n ih =>
    obtain ⟨N, rfl⟩ : ∃ k, N = k + 1 := ⟨N - 1, by omega⟩
    unfold approach at h
    unfold distanceLoop
    split at h
    · rename_i hc
      rw [closestQ_eq (by rw [hc]; nofun), hc]; rfl
    · cases h
    · cases h
    · rename_i v s1 hc
      rw [closestQ_eq (by rw [hc]; nofun), hc, Res.bind_ok]
      dsimp only
      split at h
      · cases h
      rename_i hv
      rw [if_neg hv]
      obtain ⟨p, hp⟩ := hs (-v)
      rw [hp] at h
      rw [hp, Res.bind_ok]
      cases s1 with
      | nil => rfl
      | cons s0 s1 =>
        dsimp only at h
        split at h
        · cases h
        rename_i hlt
        rw [show (s0 :: s1)[0]? = some s0 from rfl, Res.ofOption_some, Res.bind_ok]
        rw [if_neg (show ¬ (Inner.dot p.v (-v) - Inner.dot s0.v (-v) < tolerance) from fun h' => hlt (lt_of_lt_of_le h' hm))]
        exact ih h (by omega)
end

end

/-! ## From rational to real numbers -/
noncomputable section

/-- a rational vector as a real one -/
def up (v : V3 ℚ) : V3 ℝ := ⟨v.x, v.y, v.z⟩
def upS (p : SP (V3 ℚ)) : SP (V3 ℝ) := ⟨up p.v, up p.supA, up p.supB⟩
def upM (m : M3 ℚ) : M3 ℝ := ⟨up m.c0, up m.c1, up m.c2⟩
def upD (D : Dec3 ℚ) : Dec3 ℝ := ⟨D.scale, upM D.rot, up D.disp⟩
def upI (S : Slide ℚ) : Slide ℝ := ⟨S.s.map upS, S.lambda, up S.normal, up S.o, up S.v⟩
/-- a function on the result, if there is one -/
def onOk {α β : Type} (f : α → β) : Res α → Res β
  | .ok a => .ok (f a)
  | .panic => .panic
  | .timeout => .timeout

theorem up_sub (a b : V3 ℚ) : up (a - b) = up a - up b := by ext <;> simp [up]
theorem up_add (a b : V3 ℚ) : up (a + b) = up a + up b := by ext <;> simp [up]
theorem up_neg (a : V3 ℚ) : up (-a) = -up a := by ext <;> simp [up]
theorem up_cross (a b : V3 ℚ) : up (a.cross b) = (up a).cross (up b) := by ext <;> simp [up, V3.cross]
theorem up_aba (a b : V3 ℚ) : up (crossAba a b) = crossAba (up a) (up b) := by simp only [crossAba, up_cross]
theorem cast_le_one {q : ℚ} : (q : ℝ) ≤ 1 ↔ q ≤ 1 := by exact_mod_cast Iff.rfl
theorem cast_one_lt {q : ℚ} : 1 < (q : ℝ) ↔ 1 < q := by exact_mod_cast Iff.rfl
theorem up_mul (a : V3 ℚ) (k : ℚ) : up (a * k) = up a * (k : ℝ) := by ext <;> simp [up]
theorem up_div (a : V3 ℚ) (k : ℚ) : up (a / k) = up a / (k : ℝ) := by ext <;> simp [up]
theorem up_zero : up 0 = 0 := by ext <;> simp [up]
theorem up_dot (a b : V3 ℚ) : ((a.dot b : ℚ) : ℝ) = (up a).dot (up b) := by simp [up, V3.dot]
theorem up_eq_zero {a : V3 ℚ} : up a = 0 ↔ a = 0 := by
  simp [up, V3.ext_iff]
theorem upS_v (p : SP (V3 ℚ)) : (upS p).v = up p.v := rfl
theorem up_apply (m : M3 ℚ) (v : V3 ℚ) : up (m.apply v) = (upM m).apply (up v) := by
  simp only [M3.apply, up_add, up_mul]; rfl
theorem up_transpose (m : M3 ℚ) : upM m.transpose = (upM m).transpose := rfl

theorem checkSide_up (abc ab ac ao : V3 ℚ) (s0 s1 s2 : SP (V3 ℚ)) (above ign : Bool) :
    checkSide (up abc) (up ab) (up ac) (up ao) (upS s0) (upS s1) (upS s2) above ign =
      ((checkSide abc ab ac ao s0 s1 s2 above ign).1.map upS, up (checkSide abc ab ac ao s0 s1 s2 above ign).2) := by
  unfold checkSide crossAba
  simp only [← up_cross, ← up_dot, ← up_neg, gt_iff_lt, Rat.cast_pos]
  split
  · rfl
  · split
    · rfl
    · split <;> rfl

theorem reduce3_up (s : List (SP (V3 ℚ))) (d : V3 ℚ) :
    reduce3 (s.map upS) (up d) = ((reduce3 s d).1, (reduce3 s d).2.1.map upS, up (reduce3 s d).2.2) := by
  rcases s with _ | ⟨s0, _ | ⟨s1, _ | ⟨s2, _ | ⟨s3, _ | ⟨s4, rest⟩⟩⟩⟩⟩
  · rfl
  · rfl
  · simp only [List.map_cons, List.map_nil, reduce3, upS_v, ← up_sub, ← up_neg, ← up_aba, up_eq_zero]
    by_cases h : crossAba (s0.v - s1.v) (-s1.v) = 0
    · rw [if_pos h, if_pos h]
      simp [up]
    · rw [if_neg h, if_neg h]
  · simp only [List.map_cons, List.map_nil, reduce3, upS_v, ← up_sub, ← up_neg, ← up_cross, checkSide_up]
  · simp only [List.map_cons, List.map_nil, reduce3, upS_v, ← up_sub, ← up_neg, ← up_cross, ← up_dot, gt_iff_lt, Rat.cast_pos, checkSide_up]
    split
    · rfl
    · split
      · rfl
      · split <;> rfl
  · rfl

theorem edgeQ_up (a b : V3 ℚ) : edgeQ (up a) (up b) = (edgeQ a b).map up := by
  unfold edgeQ
  simp only [← up_sub, ← up_dot, up_eq_zero]
  by_cases h : b - a = 0
  · rw [if_pos h, if_pos h]; rfl
  rw [if_neg h, if_neg h]
  simp only [← Rat.cast_neg, Rat.cast_lt, Rat.cast_lt_zero, ← Rat.cast_div, ← up_mul, ← up_add, Option.map_some, Option.some.injEq]
  split
  · rfl
  · split <;> rfl

theorem baryQ_up (p a b c : V3 ℚ) : baryQ (up p) (up a) (up b) (up c) = (((baryQ p a b c).1 : ℝ), ((baryQ p a b c).2.1 : ℝ), ((baryQ p a b c).2.2 : ℝ)) := by
  simp only [baryQ, ← up_sub, ← up_dot]
  push_cast
  rfl

theorem faceQ_up (a b c n : V3 ℚ) : faceQ (up a) (up b) (up c) (up n) = onOk up (faceQ a b c n) := by
  unfold faceQ
  simp only [← up_sub, ← up_cross, ← up_dot, up_eq_zero, Rat.cast_eq_zero]
  split
  · rfl
  split
  · rfl
  have e : -(((a.dot ((b - a).cross (c - a)) : ℚ) : ℝ) / ((n.dot ((b - a).cross (c - a)) : ℚ) : ℝ)) =
      ((-(a.dot ((b - a).cross (c - a)) / n.dot ((b - a).cross (c - a))) : ℚ) : ℝ) := by push_cast; rfl
  simp only [e, ← up_neg, ← up_mul, baryQ_up, Rat.cast_lt_zero, Rat.cast_nonneg]
  split
  · simp only [onOk, up_zero]
  · simp only [cast_le_one]
    split <;> rfl

theorem closestQ_up (s : List (SP (V3 ℚ))) : closestQ (s.map upS) = onOk (fun c => (c.1.map up, c.2.map upS)) (closestQ s) := by
  unfold closestQ
  have := reduce3_up s 0
  rw [up_zero] at this
  simp only [this]
  split
  · rfl
  · generalize (reduce3 s 0).2.2 = d
    generalize (reduce3 s 0).2.1 = t
    rcases t with _ | ⟨s0, _ | ⟨s1, _ | ⟨s2, rest⟩⟩⟩
    · rfl
    · rfl
    · simp only [List.map_cons, List.map_nil, upS_v, edgeQ_up]; rfl
    · simp only [List.map_cons, upS_v, faceQ_up]
      cases faceQ s2.v s1.v s0.v d <;> rfl

section
variable {left right : V3 ℚ → Res (V3 ℚ)} {left' right' : V3 ℝ → Res (V3 ℝ)} (hl : ∀ d, left' (up d) = onOk up (left d)) (hr : ∀ d, right' (up d) = onOk up (right d))
include hl hr

theorem minkowski_up (d : V3 ℚ) : SP.fromMinkowski left' right' (up d) = onOk upS (SP.fromMinkowski left right d) := by
  unfold SP.fromMinkowski
  rw [hl, ← up_neg, hr]
  cases left d with
  | ok l =>
    cases right (-d) with
    | ok r => simp only [onOk, Res.bind_ok, Res.pure_eq, upS, up_sub]
    | panic => rfl
    | timeout => rfl
  | panic => rfl
  | timeout => rfl

theorem slideStep_up (ray : V3 ℚ) (m : ℚ) (S : Slide ℚ) : slideStep left' right' (up ray) m (upI S) = onOk upI (slideStep left right ray m S) := by
  unfold slideStep
  have hv : (upI S).v = up S.v := rfl
  rw [hv, ← up_neg, minkowski_up hl hr]
  cases SP.fromMinkowski left right (-S.v) with
  | panic => rfl
  | timeout => rfl
  | ok p =>
    have hlam : (upI S).lambda = (S.lambda : ℝ) := rfl
    have hsub : ∀ q : V3 ℚ, (upS p).subPoint (up q) = upS (p.subPoint q) := by
      intro q; simp only [SP.subPoint, upS, up_sub]
    have ho : (upI S).o = up S.o := rfl
    have hss : (upI S).s = S.s.map upS := rfl
    have e1 : [upS (p.subPoint (ray * (S.v.dot p.v / S.v.dot ray)))] = [p.subPoint (ray * (S.v.dot p.v / S.v.dot ray))].map upS := rfl
    have e2 : S.s.map upS ++ [upS (p.subPoint S.o)] = (S.s ++ [p.subPoint S.o]).map upS := by simp
    simp only [onOk, upS_v, ← up_dot, Rat.cast_lt, hlam, gt_iff_lt, ← Rat.cast_mul, ← Rat.cast_div, Rat.cast_pos, cast_one_lt, ← up_mul, ho, hsub, hss]
    rw [e1, e2, closestQ_up, closestQ_up]
    split
    · rfl
    split
    · split
      · split
        · rfl
        · cases closestQ [p.subPoint (ray * (S.v.dot p.v / S.v.dot ray))] with
          | panic => rfl
          | timeout => rfl
          | ok c =>
            obtain ⟨c, t⟩ := c
            cases c with
            | none => rfl
            | some v => simp only [onOk, Option.map_some, upI, ← up_neg]
      · rfl
    · cases closestQ (S.s ++ [p.subPoint S.o]) with
      | panic => rfl
      | timeout => rfl
      | ok c =>
        obtain ⟨c, t⟩ := c
        cases c with
        | none => rfl
        | some v => rfl

theorem slide_up (ray : V3 ℚ) (m : ℚ) (n : Nat) (S : Slide ℚ) : slide left' right' (up ray) m n (upI S) = onOk upI (slide left right ray m n S) := by
  induction n generalizing S with
  | zero => rfl
  | succ n ih =>
    unfold slide
    rw [slideStep_up hl hr]
    cases slideStep left right ray m S with
    | panic => rfl
    | timeout => rfl
    | ok S' => exact ih S'

theorem approach_up (m : ℚ) (n : Nat) (s : List (SP (V3 ℚ))) : approach left' right' (m : ℝ) n (s.map upS) = onOk (List.map upS) (approach left right m n s) := by
  induction n generalizing s with
  | zero => rfl
  | succ n ih =>
    unfold approach
    rw [closestQ_up]
    cases closestQ s with
    | panic => rfl
    | timeout => rfl
    | ok c =>
      obtain ⟨c, t⟩ := c
      cases c with
      | none => rfl
      | some v =>
        simp only [onOk, Option.map_some, up_eq_zero]
        split
        · rfl
        · rw [← up_neg, minkowski_up hl hr]
          cases SP.fromMinkowski left right (-v) with
          | panic => rfl
          | timeout => rfl
          | ok p =>
            cases t with
            | nil => rfl
            | cons s0 t =>
              have e : (upS s0 :: t.map upS) ++ [upS p] = ((s0 :: t) ++ [p]).map upS := by simp
              simp only [onOk, List.map_cons, upS_v, ← up_dot, ← Rat.cast_sub, Rat.cast_lt]
              rw [e, ih]
              split <;> rfl
end

/-- the function under the fold of `maxPoint3` -/
def maxStep {K : Type} [Field K] [LinearOrder K] (e : V3 K) (acc : V3 K × Option K) (v : V3 K) : V3 K × Option K :=
  match acc.2 with
  | none => (v, some (v.dot e))
  | some m => if v.dot e > m then (v, some (v.dot e)) else acc

theorem maxPoint3_fold {K : Type} [Field K] [LinearOrder K] [IsStrictOrderedRing K] (vs : List (V3 K)) (e : V3 K) :
    maxPoint3 vs e = (vs.foldl (maxStep e) (0, none)).1 := rfl

/-- The box over the rationals and over the reals. -/
theorem cuboid_up (w h l : ℚ) (D : Dec3 ℚ) (d : V3 ℚ) : (Cuboid.new (w : ℝ) h l).supportPoint (upD D).tr (up d) = onOk up ((Cuboid.new w h l).supportPoint D.tr d) := by
  have hmax : ∀ (vs : List (V3 ℚ)) (e : V3 ℚ), maxPoint3 (vs.map up) (up e) = up (maxPoint3 vs e) := by
    intro vs e
    rw [maxPoint3_fold, maxPoint3_fold, List.foldl_map]
    obtain ⟨f, hf⟩ : ∃ f : V3 ℚ × Option ℚ → V3 ℝ × Option ℝ, f = fun acc => (up acc.1, acc.2.map (fun q : ℚ => (q : ℝ))) := ⟨_, rfl⟩
    rw [show ((0 : V3 ℝ), (none : Option ℝ)) = f (0, none) by rw [hf]; simp [up_zero], List.foldl_hom f (g₁ := maxStep e)]
    · rw [hf]
    · rintro ⟨b, o⟩ v
      rw [hf]
      cases o with
      | none => simp only [maxStep, Option.map_none, Option.map_some, up_dot]
      | some m =>
        simp only [maxStep, Option.map_some, ← up_dot, gt_iff_lt, Rat.cast_lt]
        split <;> rfl
  have hc : (Cuboid.new (w : ℝ) h l).corners = (Cuboid.new w h l).corners.map up := by
    simp [Cuboid.new, Cuboid.newImpl, Cuboid.generateCorners, up]
  unfold Cuboid.supportPoint support
  rw [hc]
  have hinv : (upD D).tr.invVector (up d) = (D.tr.invVector d).map up := by
    simp only [Dec3.tr, upD, Rat.cast_eq_zero, ← up_div, ← up_transpose, ← up_apply]
    split <;> rfl
  rw [hinv]
  cases D.tr.invVector d with
  | none => rfl
  | some e =>
    simp only [Option.map_some, Res.ofOption_some, Res.bind_ok, Res.pure_eq, onOk, hmax, Dec3.tr, upD, up_add, up_apply, up_mul]

theorem cuboid_up' (w h l : Nat) [w.AtLeastTwo] [h.AtLeastTwo] [l.AtLeastTwo] (D : Dec3 ℚ) (d : V3 ℚ) :
    (Cuboid.new (OfNat.ofNat w : ℝ) (OfNat.ofNat h) (OfNat.ofNat l)).supportPoint (upD D).tr (up d) =
      onOk up ((Cuboid.new (OfNat.ofNat w : ℚ) (OfNat.ofNat h) (OfNat.ofNat l)).supportPoint D.tr d) := by
  have := cuboid_up (OfNat.ofNat w) (OfNat.ofNat h) (OfNat.ofNat l) D d
  simpa using this

theorem tr_up (D : Dec3 ℚ) (p : V3 ℚ) : (upD D).tr.point (up p) = up (D.tr.point p) := by
  simp only [Dec3.tr, upD, up_add, up_apply, up_mul]


/-- The support of a box never panics for a placement with a scale. -/
theorem cuboid_total (s : Cuboid ℝ) (D : Dec3 ℝ) (h : D.scale ≠ 0) (d : V3 ℝ) : ∃ p, s.supportPoint D.tr d = .ok p := by
  unfold Cuboid.supportPoint support
  simp only [Dec3.tr, if_neg h, Res.ofOption_some, Res.bind_ok, Res.pure_eq]
  exact ⟨_, rfl⟩

/-- not turned, not moved -/
def stayA : Dec3 ℚ := ⟨1, ⟨⟨1, 0, 0⟩, ⟨0, 1, 0⟩, ⟨0, 0, 1⟩⟩, ⟨0, 0, 0⟩⟩

theorem stayA_rotation : (upD stayA).rot.Rotation := by
  constructor <;> simp [stayA, upD, upM, up, V3.dot, V3.cross]

/-! ## Time of impact does not return -/

/-- The placement of a box of 4 × 6 × 2, at the start. -/
def hangB : Dec3 ℚ := ⟨1, ⟨⟨1 / 3, -2 / 3, -2 / 3⟩, ⟨-2 / 3, 1 / 3, -2 / 3⟩, ⟨2 / 3, 2 / 3, -1 / 3⟩⟩, ⟨3, 7, -7⟩⟩
/-- and at the end -/
def hangB' : Dec3 ℚ := ⟨1, ⟨⟨1 / 3, -2 / 3, -2 / 3⟩, ⟨-2 / 3, 1 / 3, -2 / 3⟩, ⟨2 / 3, 2 / 3, -1 / 3⟩⟩, ⟨-4, 3, 1⟩⟩

/-- The run over the rationals: two iterations lead to a state that seven iterations lead back to. -/
theorem hang_run :
    (match SP.fromMinkowski ((Cuboid.new 2 2 2).supportPoint stayA.tr) ((Cuboid.new 4 6 2).supportPoint hangB.tr) (-(⟨-7, -4, 8⟩ : V3 ℚ)) with
      | .ok p =>
        match slide ((Cuboid.new 2 2 2).supportPoint stayA.tr) ((Cuboid.new 4 6 2).supportPoint hangB.tr) ⟨-7, -4, 8⟩ (9 / 50) 2 ⟨[], 0, 0, 0, p.v⟩ with
        | .ok S => decide (slide ((Cuboid.new 2 2 2).supportPoint stayA.tr) ((Cuboid.new 4 6 2).supportPoint hangB.tr) ⟨-7, -4, 8⟩ (9 / 50) 7 S = .ok S)
        | _ => false
      | _ => false) = true := by decide +kernel

/-- From such a run over the rationals to time of impact over the reals. -/
theorem toi_hangs {left right : V3 ℚ → Res (V3 ℚ)} {left' right' : V3 ℝ → Res (V3 ℝ)} (hl : ∀ d, left' (up d) = onOk up (left d))
    (hr : ∀ d, right' (up d) = onOk up (right d)) {ray : V3 ℚ} {m : ℚ} {i n : Nat} (hn : 0 < n)
    (h : (match SP.fromMinkowski left right (-ray) with
      | .ok p =>
        match slide left right ray m i ⟨[], 0, 0, 0, p.v⟩ with
        | .ok S => decide (slide left right ray m n S = .ok S)
        | _ => false
      | _ => false) = true) {tolerance : ℝ} (hm : tolerance < m) (fuel : Nat) {lStart lEnd rStart rEnd : V3 ℝ} (hray : (rEnd - rStart) - (lEnd - lStart) = up ray)
    (place : ℝ → V3 ℝ → V3 ℝ) : gjkToi closest3 V3.normalize tolerance fuel left' right' lStart lEnd rStart rEnd place = .timeout := by
  unfold gjkToi
  dsimp only
  rw [hray, ← up_neg, minkowski_up hl hr]
  cases hp : SP.fromMinkowski left right (-ray) with
  | panic => rw [hp] at h; cases h
  | timeout => rw [hp] at h; cases h
  | ok p =>
    rw [hp] at h
    dsimp only at h
    simp only [onOk, Res.bind_ok, upS_v]
    cases hS : slide left right ray m i ⟨[], 0, 0, 0, p.v⟩ with
    | panic => rw [hS] at h; cases h
    | timeout => rw [hS] at h; cases h
    | ok S =>
      rw [hS] at h
      simp only [decide_eq_true_eq] at h
      have h1 := slide_up hl hr ray m i ⟨[], 0, 0, 0, p.v⟩
      rw [hS] at h1
      have h2 := slide_up hl hr ray m n S
      rw [h] at h2
      have e : (upI ⟨[], 0, 0, 0, p.v⟩ : Slide ℝ).impact = ⟨0, 0, 0, up p.v⟩ := by
        simp [upI, Slide.impact, up_zero]
      have es : (upI ⟨[], 0, 0, 0, p.v⟩ : Slide ℝ).s = [] := rfl
      have key : toiLoop closest3 tolerance left' right' (up ray) fuel [] ⟨0, 0, 0, up p.v⟩ = .timeout := by
        rw [← e]
        nth_rw 1 [← es]
        by_cases hf : fuel < i
        · exact slide_less hm h1 hf
        · rw [show fuel = i + (fuel - i) by omega, slide_ok hm h1]
          exact slide_cycle hm hn h2 _
      rw [key]
      rfl

/-- **C85 is false in 3D.** A cube of side 2 that rests and a box of 4 × 6 × 2 that only moves; they are apart at the start and have a point in
common after three quarters of the movement. For every tolerance from 0 to 0.18 (the code's default is 0.000001) `intersection_time_of_impact` does not return: whatever number of
iterations is allowed, it is not enough. -/
theorem c85_false (nz nz' : V3 ℝ → Bool) :
    (upD stayA).rot.Rotation ∧ (upD hangB).rot.Rotation ∧ (upD hangB').rot = (upD hangB).rot ∧
    (¬ ∃ p, Image (upD stayA).tr (InBox 2 2 2) p ∧ Image (upD hangB).tr (InBox 4 6 2) p) ∧
    MeetAt3 (Image (upD stayA).tr (InBox 2 2 2)) (Image (upD hangB).tr (InBox 4 6 2)) 0 ((upD hangB').disp - (upD hangB).disp) (3 / 4) ∧
    ∀ tolerance : ℝ, tolerance < 9 / 50 → ∀ fuel,
      gjkToi closest3 V3.normalize tolerance fuel ((Prim3.cuboid (Cuboid.new 2 2 2)).supportPoint nz (upD stayA).tr)
        ((Prim3.cuboid (Cuboid.new 4 6 2)).supportPoint nz' (upD hangB).tr) ((upD stayA).tr.point 0) ((upD stayA).tr.point 0) ((upD hangB).tr.point 0)
        ((upD hangB').tr.point 0) (fun t p => (Dec3.translationInterpolate (upD hangB) (upD hangB') t).tr.point p) = .timeout := by
  refine ⟨stayA_rotation, ?_, rfl, ?_, ?_, ?_⟩
  · constructor <;> simp [hangB, upD, upM, up, V3.dot, V3.cross] <;> norm_num
  · rintro ⟨p, ⟨q, hq, rfl⟩, r, hr, e⟩
    have hx := congrArg V3.x e
    have hy := congrArg V3.y e
    have hz := congrArg V3.z e
    simp [hangB, stayA, upD, upM, up, Dec3.tr, M3.apply] at hx hy hz
    obtain ⟨⟨q1, q2⟩, ⟨q3, q4⟩, q5, q6⟩ := hq
    obtain ⟨⟨r1, r2⟩, ⟨r3, r4⟩, r5, r6⟩ := hr
    linarith
  · refine ⟨⟨-1 / 4, 1, 0⟩, ⟨-1 / 4 + 21 / 4, 1 + 3, -6⟩, ⟨⟨-1 / 4, 1, 0⟩, ?_, ?_⟩, ⟨(upM hangB.rot.transpose).apply (⟨5, 4, -6⟩ - up hangB.disp), ?_, ?_⟩, ?_⟩
    · norm_num [InBox]
    · ext <;> simp [stayA, upD, upM, up, Dec3.tr, M3.apply]
    · norm_num [InBox, hangB, upM, up, M3.apply, M3.transpose]
    · ext <;> simp [hangB, upD, upM, up, Dec3.tr, M3.apply, M3.transpose] <;> norm_num
    · ext <;> simp [hangB, hangB', upD, up] <;> norm_num
  · intro tolerance ht fuel
    refine toi_hangs (cuboid_up' 2 2 2 stayA) (cuboid_up' 4 6 2 hangB) (by norm_num) hang_run (by push_cast; exact ht) fuel ?_ _
    ext <;> simp [hangB, hangB', stayA, upD, upM, up, Dec3.tr, M3.apply] <;> norm_num

/-! ## Time of impact panics -/

/-- The placement of a cube of side 2, at the start. -/
def panicB : Dec3 ℚ := ⟨1, ⟨⟨1 / 3, -2 / 3, 2 / 3⟩, ⟨-2 / 3, 1 / 3, 2 / 3⟩, ⟨-2 / 3, -2 / 3, -1 / 3⟩⟩, ⟨-2, 5, 1⟩⟩
/-- and at the end -/
def panicB' : Dec3 ℚ := ⟨1, ⟨⟨1 / 3, -2 / 3, 2 / 3⟩, ⟨-2 / 3, 1 / 3, 2 / 3⟩, ⟨-2 / 3, -2 / 3, -1 / 3⟩⟩, ⟨-7, 5, -4⟩⟩

theorem panic_run :
    (match SP.fromMinkowski ((Cuboid.new 4 6 2).supportPoint stayA.tr) ((Cuboid.new 2 2 2).supportPoint panicB.tr) (-(⟨-5, 0, -5⟩ : V3 ℚ)) with
      | .ok p => decide (slide ((Cuboid.new 4 6 2).supportPoint stayA.tr) ((Cuboid.new 2 2 2).supportPoint panicB.tr) ⟨-5, 0, -5⟩ (1 / 100) 6 ⟨[], 0, 0, 0, p.v⟩ = .panic)
      | _ => false) = true := by decide +kernel

/-- From such a run over the rationals to time of impact over the reals. -/
theorem toi_panics {left right : V3 ℚ → Res (V3 ℚ)} {left' right' : V3 ℝ → Res (V3 ℝ)} (hl : ∀ d, left' (up d) = onOk up (left d))
    (hr : ∀ d, right' (up d) = onOk up (right d)) (hl' : ∀ d, ∃ p, left' d = .ok p) (hr' : ∀ d, ∃ p, right' d = .ok p) {ray : V3 ℚ} {m : ℚ} {n : Nat}
    (h : (match SP.fromMinkowski left right (-ray) with
      | .ok p => decide (slide left right ray m n ⟨[], 0, 0, 0, p.v⟩ = .panic)
      | _ => false) = true) {tolerance : ℝ} (hm : tolerance < m) {fuel : Nat} (hf : n ≤ fuel) {lStart lEnd rStart rEnd : V3 ℝ}
    (hray : (rEnd - rStart) - (lEnd - lStart) = up ray) (place : ℝ → V3 ℝ → V3 ℝ) :
    gjkToi closest3 V3.normalize tolerance fuel left' right' lStart lEnd rStart rEnd place = .panic := by
  have hs : ∀ d, SP.fromMinkowski left' right' d ≠ .panic := by
    intro d
    obtain ⟨l, h1⟩ := hl' d
    obtain ⟨r, h2⟩ := hr' (-d)
    simp [SP.fromMinkowski, h1, h2]
  unfold gjkToi
  dsimp only
  rw [hray, ← up_neg, minkowski_up hl hr]
  cases hp : SP.fromMinkowski left right (-ray) with
  | panic => rw [hp] at h; cases h
  | timeout => rw [hp] at h; cases h
  | ok p =>
    rw [hp] at h
    simp only [decide_eq_true_eq] at h
    simp only [onOk, Res.bind_ok, upS_v]
    have h1 := slide_up hl hr ray m n ⟨[], 0, 0, 0, p.v⟩
    rw [h] at h1
    have e : (upI ⟨[], 0, 0, 0, p.v⟩ : Slide ℝ).impact = ⟨0, 0, 0, up p.v⟩ := by
      simp [upI, Slide.impact, up_zero]
    have es : (upI ⟨[], 0, 0, 0, p.v⟩ : Slide ℝ).s = [] := rfl
    have key : toiLoop closest3 tolerance left' right' (up ray) fuel [] ⟨0, 0, 0, up p.v⟩ = .panic := by
      rw [← e]
      nth_rw 1 [← es]
      exact slide_panic hm hs h1 hf
    rw [key]
    rfl

/-- **C85 is false in 3D, in another way.** A box of 4 × 6 × 2 that rests and a cube of side 2 that moves by (-5, 0, -5): the assertion on the
closest point of a face fails in the sixth iteration. -/
theorem c85_panic_false (nz nz' : V3 ℝ → Bool) :
    (upD stayA).rot.Rotation ∧ (upD panicB).rot.Rotation ∧ (upD panicB').rot = (upD panicB).rot ∧
    ∀ tolerance : ℝ, tolerance < 1 / 100 → ∀ fuel, 6 ≤ fuel →
      gjkToi closest3 V3.normalize tolerance fuel ((Prim3.cuboid (Cuboid.new 4 6 2)).supportPoint nz (upD stayA).tr)
        ((Prim3.cuboid (Cuboid.new 2 2 2)).supportPoint nz' (upD panicB).tr) ((upD stayA).tr.point 0) ((upD stayA).tr.point 0) ((upD panicB).tr.point 0)
        ((upD panicB').tr.point 0) (fun t p => (Dec3.translationInterpolate (upD panicB) (upD panicB') t).tr.point p) = .panic := by
  refine ⟨stayA_rotation, ?_, rfl, ?_⟩
  · constructor <;> simp [panicB, upD, upM, up, V3.dot, V3.cross] <;> norm_num
  · intro tolerance ht fuel hf
    refine toi_panics (cuboid_up' 4 6 2 stayA) (cuboid_up' 2 2 2 panicB) (cuboid_total _ _ (by simp [upD, stayA])) (cuboid_total _ _ (by simp [upD, panicB]))
      panic_run (by push_cast; exact ht) hf ?_ _
    ext <;> simp [panicB, panicB', stayA, upD, upM, up, Dec3.tr, M3.apply] <;> norm_num

/-! ## Distance panics -/

/-- The placement of a box of 2 × 2 × 6. -/
def farB : Dec3 ℚ := ⟨1, ⟨⟨-1 / 3, 2 / 3, -2 / 3⟩, ⟨-2 / 3, 1 / 3, 2 / 3⟩, ⟨2 / 3, 2 / 3, 1 / 3⟩⟩, ⟨0, 0, 7⟩⟩

theorem far_run :
    (match SP.fromMinkowski ((Cuboid.new 2 2 2).supportPoint stayA.tr) ((Cuboid.new 2 2 6).supportPoint farB.tr) ⟨0, 0, 7⟩,
        SP.fromMinkowski ((Cuboid.new 2 2 2).supportPoint stayA.tr) ((Cuboid.new 2 2 6).supportPoint farB.tr) (-⟨0, 0, 7⟩) with
      | .ok p, .ok q => decide (approach ((Cuboid.new 2 2 2).supportPoint stayA.tr) ((Cuboid.new 2 2 6).supportPoint farB.tr) 2 4 [p, q] = .panic)
      | _, _ => false) = true := by decide +kernel

/-- **C84 is false in 3D.** A cube of side 2 and a box of 2 × 2 × 6, apart: `distance` panics in its fourth iteration, because the simplex is a degenerate triangle and
`Plane::from_points` gives `None`. -/
theorem c84_false (nz nz' : V3 ℝ → Bool) :
    (upD stayA).rot.Rotation ∧ (upD farB).rot.Rotation ∧
    (¬ ∃ p, Image (upD stayA).tr (InBox 2 2 2) p ∧ Image (upD farB).tr (InBox 2 2 6) p) ∧
    ∀ tolerance : ℝ, tolerance ≤ 2 → ∀ nan maxIterations, 4 ≤ maxIterations →
      gjkDistance closest3 tolerance maxIterations ((Prim3.cuboid (Cuboid.new 2 2 2)).supportPoint nz (upD stayA).tr)
        ((Prim3.cuboid (Cuboid.new 2 2 6)).supportPoint nz' (upD farB).tr) nan ((upD stayA).tr.point 0) ((upD farB).tr.point 0) = .panic := by
  refine ⟨stayA_rotation, ?_, ?_, ?_⟩
  · constructor <;> simp [farB, upD, upM, up, V3.dot, V3.cross] <;> norm_num
  · rintro ⟨p, ⟨q, hq, rfl⟩, r, hr, e⟩
    have hx := congrArg V3.x e
    have hy := congrArg V3.y e
    have hz := congrArg V3.z e
    simp [farB, stayA, upD, upM, up, Dec3.tr, M3.apply] at hx hy hz
    obtain ⟨⟨q1, q2⟩, ⟨q3, q4⟩, q5, q6⟩ := hq
    obtain ⟨⟨r1, r2⟩, ⟨r3, r4⟩, r5, r6⟩ := hr
    linarith
  · intro tolerance ht nan N hN
    have hl := cuboid_up' 2 2 2 stayA
    have hr := cuboid_up' 2 2 6 farB
    have hrun := far_run
    have hs : ∀ d, ∃ p, SP.fromMinkowski ((Prim3.cuboid (Cuboid.new 2 2 2)).supportPoint nz (upD stayA).tr)
        ((Prim3.cuboid (Cuboid.new 2 2 6)).supportPoint nz' (upD farB).tr) d = .ok p := by
      intro d
      obtain ⟨l, h1⟩ := cuboid_total (Cuboid.new 2 2 2) (upD stayA) (by simp [upD, stayA]) d
      obtain ⟨r, h2⟩ := cuboid_total (Cuboid.new 2 2 6) (upD farB) (by simp [upD, farB]) (-d)
      exact ⟨⟨l - r, l, r⟩, by simp [SP.fromMinkowski, Prim3.supportPoint, h1, h2]⟩
    obtain ⟨L, hL⟩ : ∃ L, L = (Cuboid.new 2 2 2).supportPoint stayA.tr := ⟨_, rfl⟩
    obtain ⟨R, hR⟩ : ∃ R, R = (Cuboid.new 2 2 6).supportPoint farB.tr := ⟨_, rfl⟩
    rw [← hL, ← hR] at hrun
    have hm := minkowski_up (left := L) (right := R) (left' := (Prim3.cuboid (Cuboid.new 2 2 2)).supportPoint nz (upD stayA).tr)
      (right' := (Prim3.cuboid (Cuboid.new 2 2 6)).supportPoint nz' (upD farB).tr) (by rw [hL]; exact hl) (by rw [hR]; exact hr)
    have ha := approach_up (left := L) (right := R) (left' := (Prim3.cuboid (Cuboid.new 2 2 2)).supportPoint nz (upD stayA).tr)
      (right' := (Prim3.cuboid (Cuboid.new 2 2 6)).supportPoint nz' (upD farB).tr) (by rw [hL]; exact hl) (by rw [hR]; exact hr) 2 4
    unfold gjkDistance
    dsimp only
    have hd' : @firstDirection (V3 ℝ) ℝ _ _ (fun a b => Classical.propDecidable (a = b)) _ ((upD stayA).tr.point 0) ((upD farB).tr.point 0) = up ⟨0, 0, 7⟩ := by
      have h0 : (upD farB).tr.point 0 - (upD stayA).tr.point 0 = up ⟨0, 0, 7⟩ := by
        ext <;> simp [farB, stayA, upD, upM, up, Dec3.tr, M3.apply]
      unfold firstDirection
      dsimp only
      rw [h0, if_neg]
      rw [up_eq_zero]
      decide +kernel
    rw [hd', ← up_neg, hm, hm]
    cases hp : SP.fromMinkowski L R ⟨0, 0, 7⟩ with
    | panic => rw [hp] at hrun; cases hrun
    | timeout => rw [hp] at hrun; cases hrun
    | ok p =>
      cases hq : SP.fromMinkowski L R (-⟨0, 0, 7⟩) with
      | panic => rw [hp, hq] at hrun; cases hrun
      | timeout => rw [hp, hq] at hrun; cases hrun
      | ok q =>
        rw [hp, hq] at hrun
        simp only [decide_eq_true_eq] at hrun
        have h1 := ha [p, q]
        rw [hrun] at h1
        simp only [onOk, Res.bind_ok]
        exact approach_panic (m := ((2 : ℚ) : ℝ)) (by push_cast; exact ht) nan h1 hs hN
end
end Verif.Minkowski
