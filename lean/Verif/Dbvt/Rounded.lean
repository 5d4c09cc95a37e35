import Verif.BroadPhase.Rounding
import Verif.Dbvt.VolumeTree
import Mathlib.Data.EReal.Inv
/-!
# C99: ray and frustum queries under rounding

The tree prunes a subtree when the test of a branch volume fails. If rounding could make the test of a big box fail although the test of a
small box inside succeeds, a query would lose values. Here the tests are modelled once more, with every arithmetic operation rounded: the operation is carried out
exactly in the extended reals and the result mapped to a representable number by an arbitrary monotone map (every IEEE rounding mode is one; overflow goes
to an infinity). The order of the operations is that of the code.

Not in this model: NaN (it cannot occur in the 2D test with a finite ray, nor in the 3D test if no component of the direction is zero and the inverses are finite and not zero), the sign of zero.
-/
namespace Verif.Dbvt
open Verif Geom BroadPhase
set_option linter.unusedSectionVars false
noncomputable section

/-- Numbers with rounded arithmetic: the representable numbers `F` sit in the extended reals, `rnd` rounds. -/
structure Rounding (F : Type) [LinearOrder F] where
  val : F → EReal
  rnd : EReal → F
  val_le : ∀ a b, val a ≤ val b ↔ a ≤ b
  rnd_mono : Monotone rnd
  rnd_val : ∀ a, rnd (val a) = a
  zero : F
  one : F
  inf : F
  ninf : F
  val_zero : val zero = 0
  val_one : val one = 1
  val_inf : val inf = ⊤
  val_ninf : val ninf = ⊥

variable {F : Type} [LinearOrder F] (R : Rounding F)

/-- rounded `+` -/
def Rounding.add (a b : F) : F := R.rnd (R.val a + R.val b)
/-- rounded `-` -/
def Rounding.sub (a b : F) : F := R.rnd (R.val a - R.val b)
/-- rounded `*` -/
def Rounding.mul (a b : F) : F := R.rnd (R.val a * R.val b)
/-- rounded `/` -/
def Rounding.div (a b : F) : F := R.rnd (R.val a / R.val b)

/-- `x ↦ f x` goes one way. -/
def OneWay (f : F → F) : Prop := Monotone f ∨ Antitone f

theorem Rounding.val_mono {a b : F} (h : a ≤ b) : R.val a ≤ R.val b := (R.val_le a b).2 h
theorem Rounding.sub_mono (o : F) : Monotone fun c => R.sub c o := fun _ _ h => R.rnd_mono (EReal.sub_le_sub (R.val_mono h) le_rfl)
theorem Rounding.div_way (d : F) : OneWay fun c => R.div c d := by
  rcases le_total 0 (R.val d) with h | h
  · exact Or.inl fun _ _ hab => R.rnd_mono (EReal.div_le_div_right_of_nonneg h (R.val_mono hab))
  · exact Or.inr fun _ _ hab => R.rnd_mono (EReal.div_le_div_right_of_nonpos h (R.val_mono hab))
theorem Rounding.mul_way (d : F) : OneWay fun c => R.mul c d := by
  rcases le_total 0 (R.val d) with h | h
  · exact Or.inl fun _ _ hab => R.rnd_mono (mul_le_mul_of_nonneg_right (R.val_mono hab) h)
  · refine Or.inr fun a b hab => R.rnd_mono ?_
    have := mul_le_mul_of_nonneg_right (R.val_mono hab) (EReal.neg_nonneg.2 h)
    rw [mul_neg, mul_neg] at this
    exact EReal.neg_le_neg_iff.1 this
theorem Rounding.add_mono {a b c d : F} (h : a ≤ b) (h' : c ≤ d) : R.add a c ≤ R.add b d := R.rnd_mono (add_le_add (R.val_mono h) (R.val_mono h'))
theorem OneWay.comp {f g : F → F} (hf : OneWay f) (hg : Monotone g) : OneWay fun x => f (g x) := by
  rcases hf with h | h
  · exact Or.inl (h.comp hg)
  · exact Or.inr (h.comp_monotone hg)

/-! ## Rays, 2D -/

/-- One axis of the 2D test, rounded: `src/volume/aabb/aabb2.rs:148-155, 157-164` (and `190-197, 199-206`) -/
def axisF (lo hi o d : F) (acc : F × F) : Option (F × F) :=
  if d ≠ R.zero then
    let t1 := R.div (R.sub lo o) d
    let t2 := R.div (R.sub hi o) d
    some (max acc.1 (min t1 t2), min acc.2 (max t1 t2))
  else if o ≤ lo ∨ hi ≤ o then none else some acc

/-- `(tmin, tmax)` at the end of the rounded 2D tests -/
def slabsF2 (o d : V2 F) (b : Aabb2 F) : Option (F × F) :=
  (axisF R b.min.x b.max.x o.x d.x (R.ninf, R.inf)).bind (axisF R b.min.y b.max.y o.y d.y)

/-- `Discrete<Aabb2> for Ray2`, rounded, `src/volume/aabb/aabb2.rs:184-209` -/
def intersectsF2 (o d : V2 F) (b : Aabb2 F) : Bool :=
  match slabsF2 R o d b with
  | none => false
  | some t => decide (t.1 ≤ t.2) && (decide (R.zero ≤ t.1) || decide (R.zero ≤ t.2))

/-- `Continuous<Aabb2> for Ray2`, rounded, `src/volume/aabb/aabb2.rs:142-172` -/
def intersectionF2 (o d : V2 F) (b : Aabb2 F) : Option (V2 F) :=
  (slabsF2 R o d b).bind fun t =>
    if (t.1 < R.zero ∧ t.2 < R.zero) ∨ t.2 < t.1 then none
    else
      let u := if R.zero ≤ t.1 then t.1 else t.2
      some ⟨R.add o.x (R.mul d.x u), R.add o.y (R.mul d.y u)⟩

/-! ## Rays, 3D -/

/-- One axis of the 3D test, rounded (`inv` is the rounded inverse of the direction): `src/volume/aabb/aabb3.rs:185-186, 192-193` -/
def slabF (lo hi o inv : F) : F × F :=
  let t1 := R.mul (R.sub lo o) inv
  let t2 := R.mul (R.sub hi o) inv
  (min t1 t2, max t1 t2)

/-- `(tmin, tmax)` at the end of the rounded 3D tests, `src/volume/aabb/aabb3.rs:183-197, 220-234` -/
def slabsF3 (o d : V3 F) (b : Aabb3 F) : F × F :=
  let tx := slabF R b.min.x b.max.x o.x (R.div R.one d.x)
  let ty := slabF R b.min.y b.max.y o.y (R.div R.one d.y)
  let tz := slabF R b.min.z b.max.z o.z (R.div R.one d.z)
  (max (max tx.1 ty.1) tz.1, min (min tx.2 ty.2) tz.2)

/-- `Discrete<Aabb3> for Ray3`, rounded, `src/volume/aabb/aabb3.rs:217-237` -/
def intersectsF3 (o d : V3 F) (b : Aabb3 F) : Bool :=
  let t := slabsF3 R o d b
  decide (t.1 ≤ t.2) && (decide (R.zero ≤ t.1) || decide (R.zero ≤ t.2))

/-- `Continuous<Aabb3> for Ray3`, rounded, `src/volume/aabb/aabb3.rs:180-205` -/
def intersectionF3 (o d : V3 F) (b : Aabb3 F) : Option (V3 F) :=
  let t := slabsF3 R o d b
  if (t.1 < R.zero ∧ t.2 < R.zero) ∨ t.2 < t.1 then none
  else
    let u := if R.zero ≤ t.1 then t.1 else t.2
    some ⟨R.add o.x (R.mul d.x u), R.add o.y (R.mul d.y u), R.add o.z (R.mul d.z u)⟩

/-! ## Frusta -/

/-- A plane with representable coefficients. -/
structure PlaneF (F : Type) where
  n : V3 F
  d : F

/-- `Point3: PlaneBound`, rounded, `src/bound.rs:53-62` (the dot product of cgmath adds from the left) -/
def relatePointF (p : V3 F) (P : PlaneF F) : Relation :=
  let dist := R.add (R.add (R.mul p.x P.n.x) (R.mul p.y P.n.y)) (R.mul p.z P.n.z)
  if dist > P.d then .In else if dist < P.d then .Out else .Cross

/-- `Aabb3: PlaneBound`, rounded, `src/volume/aabb/aabb3.rs:256-265` -/
def relateBoxF (b : Aabb3 F) (P : PlaneF F) : Relation :=
  let first := relatePointF R b.min P
  if b.toCorners.tail.any (fun p => relatePointF R p P ≠ first) then .Cross else first

/-- `Frustum::contains`, rounded, `src/frustum.rs:83-101`; the six planes in the order of the code -/
def frustumF (planes : List (PlaneF F)) (b : Aabb3 F) : Relation := planes.foldl (fun cur p => cur.max (relateBoxF R b p)) .In

/-! ## The tests are monotone -/

/-- An interval inside another one is mapped inside by a one-way function. -/
theorem way_minmax {f : F → F} (hf : OneWay f) {lo hi lo' hi' : F} (h1 : lo' ≤ lo) (h2 : lo ≤ hi) (h3 : hi ≤ hi') :
    min (f lo') (f hi') ≤ min (f lo) (f hi) ∧ max (f lo) (f hi) ≤ max (f lo') (f hi') := by
  rcases hf with h | h
  · have a := h h1; have b := h h2; have c := h h3
    exact ⟨le_min ((min_le_left _ _).trans a) ((min_le_left _ _).trans (a.trans b)), max_le ((b.trans c).trans (le_max_right _ _)) (c.trans (le_max_right _ _))⟩
  · have a := h h1; have b := h h2; have c := h h3
    exact ⟨le_min ((min_le_right _ _).trans (c.trans b)) ((min_le_right _ _).trans c), max_le (a.trans (le_max_left _ _)) ((b.trans a).trans (le_max_left _ _))⟩

theorem axisF_mono {lo hi lo' hi' : F} (h1 : lo' ≤ lo) (h2 : lo ≤ hi) (h3 : hi ≤ hi') (o d : F) {acc acc' : F × F} (ha : acc'.1 ≤ acc.1 ∧ acc.2 ≤ acc'.2) {t : F × F}
    (h : axisF R lo hi o d acc = some t) : ∃ t', axisF R lo' hi' o d acc' = some t' ∧ t'.1 ≤ t.1 ∧ t.2 ≤ t'.2 := by
  unfold axisF at h ⊢
  split at h
  · rename_i hd
    rw [if_pos hd]
    cases h
    obtain ⟨g1, g2⟩ := way_minmax ((R.div_way d).comp (R.sub_mono o)) h1 h2 h3
    exact ⟨_, rfl, max_le_max ha.1 g1, min_le_min ha.2 g2⟩
  · rename_i hd
    rw [if_neg hd]
    split at h
    · cases h
    · rename_i hc
      cases h
      push Not at hc
      rw [if_neg (by push Not; exact ⟨h1.trans_lt hc.1, hc.2.trans_le h3⟩)]
      exact ⟨_, rfl, ha⟩

theorem contains_iff2 {a b : Aabb2 F} : a.contains b = true ↔ (a.min.x ≤ b.min.x ∧ b.max.x ≤ a.max.x) ∧ (a.min.y ≤ b.min.y ∧ b.max.y ≤ a.max.y) := by
  simp only [Aabb2.contains, Bool.and_eq_true, decide_eq_true_eq]; tauto
theorem contains_iff3 {a b : Aabb3 F} : a.contains b = true ↔ (a.min.x ≤ b.min.x ∧ b.max.x ≤ a.max.x) ∧ (a.min.y ≤ b.min.y ∧ b.max.y ≤ a.max.y) ∧ (a.min.z ≤ b.min.z ∧ b.max.z ≤ a.max.z) := by
  simp only [Aabb3.contains, Bool.and_eq_true, decide_eq_true_eq]; tauto

theorem slabsF2_mono (o d : V2 F) {big small : Aabb2 F} (hv : small.Valid) (hc : big.contains small = true) {t : F × F} (h : slabsF2 R o d small = some t) :
    ∃ t', slabsF2 R o d big = some t' ∧ t'.1 ≤ t.1 ∧ t.2 ≤ t'.2 := by
  obtain ⟨⟨x1, x2⟩, y1, y2⟩ := contains_iff2.1 hc
  unfold slabsF2 at h ⊢
  obtain ⟨u, hu, h2⟩ := Option.bind_eq_some_iff.1 h
  obtain ⟨u', hu', g⟩ := axisF_mono R x1 hv.1 x2 o.x d.x (acc := (R.ninf, R.inf)) (acc' := (R.ninf, R.inf)) ⟨le_rfl, le_rfl⟩ hu
  obtain ⟨t', ht', g'⟩ := axisF_mono R y1 hv.2 y2 o.y d.y g h2
  exact ⟨t', by rw [hu']; exact ht', g'⟩

/-- Growing a slab interval keeps it a hit. -/
theorem hit_mono {z a b a' b' : F} (ha : a' ≤ a) (hb : b ≤ b') (h1 : a ≤ b) (h2 : z ≤ a ∨ z ≤ b) : a' ≤ b' ∧ z ≤ b' :=
  ⟨(ha.trans h1).trans hb, by rcases h2 with h | h; exacts [(h.trans h1).trans hb, h.trans hb]⟩

theorem c99_mono_ray2 (o d : V2 F) {big small : Aabb2 F} (hv : small.Valid) (hc : big.contains small = true) :
    (intersectsF2 R o d small = true → intersectsF2 R o d big = true) ∧ ((intersectionF2 R o d small).isSome = true → (intersectionF2 R o d big).isSome = true) := by
  constructor
  · intro h
    unfold intersectsF2 at h ⊢
    cases hs : slabsF2 R o d small with
    | none => rw [hs] at h; cases h
    | some t =>
      obtain ⟨t', ht', g1, g2⟩ := slabsF2_mono R o d hv hc hs
      rw [hs] at h
      rw [ht']
      simp only [Bool.and_eq_true, decide_eq_true_eq, Bool.or_eq_true] at h ⊢
      obtain ⟨q1, q2⟩ := hit_mono g1 g2 h.1 h.2
      exact ⟨q1, Or.inr q2⟩
  · intro h
    unfold intersectionF2 at h ⊢
    cases hs : slabsF2 R o d small with
    | none => rw [hs] at h; cases h
    | some t =>
      obtain ⟨t', ht', g1, g2⟩ := slabsF2_mono R o d hv hc hs
      rw [hs] at h
      rw [ht']
      simp only [Option.bind_some] at h ⊢
      split at h
      · cases h
      · rename_i hn
        push Not at hn
        have q2 : R.zero ≤ t.1 ∨ R.zero ≤ t.2 := by
          by_contra hcon
          push Not at hcon
          exact absurd (hn.1 hcon.1) (not_le.2 hcon.2)
        obtain ⟨r1, r2⟩ := hit_mono g1 g2 hn.2 q2
        rw [if_neg (by push Not; exact ⟨fun _ => r2, r1⟩)]
        rfl

theorem slabF_mono {lo hi lo' hi' : F} (h1 : lo' ≤ lo) (h2 : lo ≤ hi) (h3 : hi ≤ hi') (o inv : F) :
    (slabF R lo' hi' o inv).1 ≤ (slabF R lo hi o inv).1 ∧ (slabF R lo hi o inv).2 ≤ (slabF R lo' hi' o inv).2 :=
  way_minmax ((R.mul_way inv).comp (R.sub_mono o)) h1 h2 h3

theorem slabsF3_mono (o d : V3 F) {big small : Aabb3 F} (hv : small.Valid) (hc : big.contains small = true) :
    (slabsF3 R o d big).1 ≤ (slabsF3 R o d small).1 ∧ (slabsF3 R o d small).2 ≤ (slabsF3 R o d big).2 := by
  obtain ⟨⟨x1, x2⟩, ⟨y1, y2⟩, z1, z2⟩ := contains_iff3.1 hc
  obtain ⟨a1, a2⟩ := slabF_mono R x1 hv.1 x2 o.x (R.div R.one d.x)
  obtain ⟨b1, b2⟩ := slabF_mono R y1 hv.2.1 y2 o.y (R.div R.one d.y)
  obtain ⟨c1, c2⟩ := slabF_mono R z1 hv.2.2 z2 o.z (R.div R.one d.z)
  exact ⟨max_le_max (max_le_max a1 b1) c1, min_le_min (min_le_min a2 b2) c2⟩

theorem c99_mono_ray3 (o d : V3 F) {big small : Aabb3 F} (hv : small.Valid) (hc : big.contains small = true) :
    (intersectsF3 R o d small = true → intersectsF3 R o d big = true) ∧ ((intersectionF3 R o d small).isSome = true → (intersectionF3 R o d big).isSome = true) := by
  obtain ⟨g1, g2⟩ := slabsF3_mono R o d hv hc
  constructor
  · intro h
    unfold intersectsF3 at h ⊢
    simp only [Bool.and_eq_true, decide_eq_true_eq, Bool.or_eq_true] at h ⊢
    obtain ⟨q1, q2⟩ := hit_mono g1 g2 h.1 h.2
    exact ⟨q1, Or.inr q2⟩
  · intro h
    unfold intersectionF3 at h ⊢
    dsimp only at h ⊢
    split at h
    · cases h
    · rename_i hn
      push Not at hn
      have q2 : R.zero ≤ (slabsF3 R o d small).1 ∨ R.zero ≤ (slabsF3 R o d small).2 := by
        by_contra hcon
        push Not at hcon
        exact absurd (hn.1 hcon.1) (not_le.2 hcon.2)
      obtain ⟨r1, r2⟩ := hit_mono g1 g2 hn.2 q2
      rw [if_neg (by push Not; exact ⟨fun _ => r2, r1⟩)]
      rfl

/-! Frusta -/

/-- A one-way function on an interval is bounded by its values at the ends. -/
theorem way_ends {f : F → F} (hf : OneWay f) {lo hi x : F} (h1 : lo ≤ x) (h2 : x ≤ hi) : (f x ≤ f lo ∨ f x ≤ f hi) ∧ (f lo ≤ f x ∨ f hi ≤ f x) := by
  rcases hf with h | h
  · exact ⟨Or.inr (h h2), Or.inl (h h1)⟩
  · exact ⟨Or.inl (h h1), Or.inr (h h2)⟩

/-- The rounded distance of a point of a box is between those of two corners. -/
theorem dist_corner (P : PlaneF F) (b : Aabb3 F) {p : V3 F} (hx : b.min.x ≤ p.x ∧ p.x ≤ b.max.x) (hy : b.min.y ≤ p.y ∧ p.y ≤ b.max.y) (hz : b.min.z ≤ p.z ∧ p.z ≤ b.max.z) :
    (∃ c ∈ b.toCorners, R.add (R.add (R.mul p.x P.n.x) (R.mul p.y P.n.y)) (R.mul p.z P.n.z) ≤ R.add (R.add (R.mul c.x P.n.x) (R.mul c.y P.n.y)) (R.mul c.z P.n.z)) ∧
    (∃ c ∈ b.toCorners, R.add (R.add (R.mul c.x P.n.x) (R.mul c.y P.n.y)) (R.mul c.z P.n.z) ≤ R.add (R.add (R.mul p.x P.n.x) (R.mul p.y P.n.y)) (R.mul p.z P.n.z)) := by
  obtain ⟨ax, bx⟩ := way_ends (R.mul_way P.n.x) hx.1 hx.2
  obtain ⟨ay, cy⟩ := way_ends (R.mul_way P.n.y) hy.1 hy.2
  obtain ⟨az, cz⟩ := way_ends (R.mul_way P.n.z) hz.1 hz.2
  have mem : ∀ x y z, (x = b.min.x ∨ x = b.max.x) → (y = b.min.y ∨ y = b.max.y) → (z = b.min.z ∨ z = b.max.z) → (⟨x, y, z⟩ : V3 F) ∈ b.toCorners := by
    rintro x y z (rfl | rfl) (rfl | rfl) (rfl | rfl) <;> simp [Aabb3.toCorners, V3.ext_iff]
  have pick : ∀ {q : F → Prop} {u v : F}, q u ∨ q v → ∃ w, (w = u ∨ w = v) ∧ q w := by
    rintro q u v (h | h)
    exacts [⟨u, Or.inl rfl, h⟩, ⟨v, Or.inr rfl, h⟩]
  constructor
  · obtain ⟨x, hx, ex⟩ := pick (q := fun w => R.mul p.x P.n.x ≤ R.mul w P.n.x) ax
    obtain ⟨y, hy, ey⟩ := pick (q := fun w => R.mul p.y P.n.y ≤ R.mul w P.n.y) ay
    obtain ⟨z, hz, ez⟩ := pick (q := fun w => R.mul p.z P.n.z ≤ R.mul w P.n.z) az
    exact ⟨⟨x, y, z⟩, mem x y z hx hy hz, R.add_mono (R.add_mono ex ey) ez⟩
  · obtain ⟨x, hx, ex⟩ := pick (q := fun w => R.mul w P.n.x ≤ R.mul p.x P.n.x) bx
    obtain ⟨y, hy, ey⟩ := pick (q := fun w => R.mul w P.n.y ≤ R.mul p.y P.n.y) cy
    obtain ⟨z, hz, ez⟩ := pick (q := fun w => R.mul w P.n.z ≤ R.mul p.z P.n.z) cz
    exact ⟨⟨x, y, z⟩, mem x y z hx hy hz, R.add_mono (R.add_mono ex ey) ez⟩

theorem relateBoxF_corners (b : Aabb3 F) (P : PlaneF F) (r : Relation) (hr : r ≠ .Cross) : relateBoxF R b P = r ↔ ∀ c ∈ b.toCorners, relatePointF R c P = r := by
  have hc : b.toCorners = b.min :: b.toCorners.tail := rfl
  unfold relateBoxF
  dsimp only
  constructor
  · intro h
    split at h
    · exact absurd h.symm hr
    · rename_i hn
      simp only [List.any_eq_true, decide_eq_true_eq, not_exists, not_and, ne_eq, not_not] at hn
      intro c hcm
      rw [hc] at hcm
      rcases List.mem_cons.1 hcm with rfl | hm
      · exact h
      · rw [hn c hm, h]
  · intro h
    have h0 : relatePointF R b.min P = r := h _ (by rw [hc]; exact List.mem_cons_self)
    rw [if_neg]
    · exact h0
    · simp only [List.any_eq_true, decide_eq_true_eq, not_exists, not_and, ne_eq, not_not]
      intro c hm
      rw [h c (by rw [hc]; exact List.mem_cons_of_mem _ hm), h0]

theorem relatePointF_out {p : V3 F} {P : PlaneF F} : relatePointF R p P = .Out ↔ R.add (R.add (R.mul p.x P.n.x) (R.mul p.y P.n.y)) (R.mul p.z P.n.z) < P.d := by
  unfold relatePointF
  dsimp only
  split
  · rename_i h; simp only [reduceCtorEq, false_iff]; exact not_lt.2 h.le
  · split
    · rename_i h; simp [h]
    · rename_i h; simp [h]
theorem relatePointF_in {p : V3 F} {P : PlaneF F} : relatePointF R p P = .In ↔ P.d < R.add (R.add (R.mul p.x P.n.x) (R.mul p.y P.n.y)) (R.mul p.z P.n.z) := by
  unfold relatePointF
  dsimp only
  split
  · rename_i h; simpa using h
  · rename_i h
    split <;> simp_all

/-- The rounded classification of a box agrees with the rounded classification of its points: `Out` (`In`) exactly if every representable point of the box is. -/
theorem c99_relate (b : Aabb3 F) (hv : b.Valid) (P : PlaneF F) (r : Relation) (hr : r ≠ .Cross) :
    relateBoxF R b P = r ↔ ∀ p : V3 F, (b.min.x ≤ p.x ∧ p.x ≤ b.max.x) → (b.min.y ≤ p.y ∧ p.y ≤ b.max.y) → (b.min.z ≤ p.z ∧ p.z ≤ b.max.z) → relatePointF R p P = r := by
  rw [relateBoxF_corners R b P r hr]
  constructor
  · intro h p hx hy hz
    obtain ⟨⟨c, hc, e⟩, c', hc', e'⟩ := dist_corner R P b hx hy hz
    cases r with
    | Cross => exact absurd rfl hr
    | Out => exact (relatePointF_out R).2 (e.trans_lt ((relatePointF_out R).1 (h c hc)))
    | In => exact (relatePointF_in R).2 (((relatePointF_in R).1 (h c' hc')).trans_le e')
  · intro h c hc
    obtain ⟨v1, v2, v3⟩ := hv
    apply h c <;> simp only [Aabb3.toCorners, List.mem_cons, List.not_mem_nil, or_false] at hc <;>
      rcases hc with rfl | rfl | rfl | rfl | rfl | rfl | rfl | rfl <;> constructor <;> simp_all

theorem foldl_outF (b : Aabb3 F) (l : List (PlaneF F)) (a : Relation) : l.foldl (fun cur p => cur.max (relateBoxF R b p)) a = .Out ↔ a = .Out ∨ ∃ P ∈ l, relateBoxF R b P = .Out := by
  induction l generalizing a with
  | nil => simp
  | cons p l ih => rw [List.foldl_cons, ih, Relation.max_out]; simp [or_assoc]

/-- Enlarging a box never turns a rounded frustum classification into `Out`. -/
theorem c99_mono_frustum (planes : List (PlaneF F)) {big small : Aabb3 F} (hv : small.Valid) (hb : big.Valid) (hc : big.contains small = true) (h : frustumF R planes small ≠ .Out) :
    frustumF R planes big ≠ .Out := by
  intro ho
  apply h
  unfold frustumF at ho ⊢
  rw [foldl_outF] at ho ⊢
  rcases ho with ho | ⟨P, hP, ho⟩
  · cases ho
  · refine Or.inr ⟨P, hP, ?_⟩
    obtain ⟨⟨x1, x2⟩, ⟨y1, y2⟩, z1, z2⟩ := contains_iff3.1 hc
    rw [c99_relate R _ hv P _ (by simp)]
    rw [c99_relate R _ hb P _ (by simp)] at ho
    intro p hx hy hz
    exact ho p ⟨x1.trans hx.1, hx.2.trans x2⟩ ⟨y1.trans hy.1, hy.2.trans y2⟩ ⟨z1.trans hz.1, hz.2.trans z2⟩

/-! ## Trees -/

variable {V S : Type}

/-- The trait methods the tree uses, for normalised boxes with representable coordinates; the functions on areas are arbitrary. -/
def fOps2 (bound fat : V → { b : Aabb2 F // b.Valid }) (area : Aabb2 F → S) (lt : S → S → Bool) (sub div : S → S → S) (im : S) : Ops V { b : Aabb2 F // b.Valid } S :=
  ⟨bound, fat, fun a b => ⟨a.1.union b.1, (c25_union_contains2 _ _).1⟩, fun a b => a.1.contains b.1, fun a => area a.1, lt, sub, div, im⟩
/-- The same in 3D. -/
def fOps3 (bound fat : V → { b : Aabb3 F // b.Valid }) (area : Aabb3 F → S) (lt : S → S → Bool) (sub div : S → S → S) (im : S) : Ops V { b : Aabb3 F // b.Valid } S :=
  ⟨bound, fat, fun a b => ⟨a.1.union b.1, (c25_union_contains3 _ _).1⟩, fun a b => a.1.contains b.1, fun a => area a.1, lt, sub, div, im⟩

theorem fEncloses2 (bound fat : V → { b : Aabb2 F // b.Valid }) (area : Aabb2 F → S) (lt : S → S → Bool) (sub div : S → S → S) (im : S) :
    Encloses (fOps2 bound fat area lt sub div im) (fun a b => a.1.contains b.1 = true) where
  trans := c26_order2.2.1 _ _ _
  union_left a b := (c25_union_contains2 a.1 b.1).2.1
  union_right a b := (c25_union_contains2 a.1 b.1).2.2
  contains h := h
theorem fEncloses3 (bound fat : V → { b : Aabb3 F // b.Valid }) (area : Aabb3 F → S) (lt : S → S → Bool) (sub div : S → S → S) (im : S) :
    Encloses (fOps3 bound fat area lt sub div im) (fun a b => a.1.contains b.1 = true) where
  trans := c26_order3.2.1 _ _ _
  union_left a b := (c25_union_contains3 a.1 b.1).2.1
  union_right a b := (c25_union_contains3 a.1 b.1).2.2
  contains h := h

/-- **C99, rays in 2D.** Under any rounding, a ray query of an up-to-date, refitted tree returns, up to order, exactly what testing the box of every value with the same rounded test
would give, with the same points; the discrete query likewise. -/
theorem c99_ray2 (bound fat : V → { b : Aabb2 F // b.Valid }) (area : Aabb2 F → S) (lt : S → S → Bool) (sub div : S → S → S) (im : S)
    (hfat : ∀ v, (fat v).1.contains (bound v).1 = true) (o d : V2 F)
    {h : Hist V} {s : Dbvt V { b : Aabb2 F // b.Valid }} (he : Exec (fOps2 bound fat area lt sub div im) h s)
    (hd : Disciplined (fOps2 bound fat area lt sub div im) h) (hu : UpToDate (fOps2 bound fat area lt sub div im) h)
    (hr : Refitted! h) {n : Nat} (hh : s.height = .ok n) (hn : n ≤ 256) :
    (∃ l, s.query (fOps2 bound fat area lt sub div im) (continuousVisitor fun b => intersectionF2 R o d b.1) () = .ok l ∧
      l.Perm (s.values.filterMap fun e => (intersectionF2 R o d (bound e.2).1).map fun p => (e.2, p))) ∧
    (∃ l, s.query (fOps2 bound fat area lt sub div im) (discreteVisitor fun b => intersectsF2 R o d b.1) () = .ok l ∧
      (l.map Prod.fst).Perm ((s.values.map Prod.snd).filter fun v => intersectsF2 R o d (bound v).1)) := by
  constructor
  · rcases c07_query _ _ (fEncloses2 bound fat area lt sub div im) hfat (fun b _ => intersectionF2 R o d b.1)
      (fun big small hc hs => (c99_mono_ray2 R o d small.2 hc).2 hs) he hd hu hr hh with ⟨-, l, h1, h2⟩ | ⟨h1, -⟩
    · exact ⟨l, h1, h2⟩
    · omega
  · rcases query_discrete _ _ (fEncloses2 bound fat area lt sub div im) hfat (fun b => intersectsF2 R o d b.1)
      (fun big small hc hs => (c99_mono_ray2 R o d small.2 hc).1 hs) he hd hu hr hh with ⟨l, h1, h2⟩ | ⟨h1, -⟩
    · exact ⟨l, h1, h2⟩
    · omega

/-- **C99, rays in 3D** (for a ray without NaN in the test: no zero component, finite inverses). -/
theorem c99_ray3 (bound fat : V → { b : Aabb3 F // b.Valid }) (area : Aabb3 F → S) (lt : S → S → Bool) (sub div : S → S → S) (im : S)
    (hfat : ∀ v, (fat v).1.contains (bound v).1 = true) (o d : V3 F)
    {h : Hist V} {s : Dbvt V { b : Aabb3 F // b.Valid }} (he : Exec (fOps3 bound fat area lt sub div im) h s)
    (hd : Disciplined (fOps3 bound fat area lt sub div im) h) (hu : UpToDate (fOps3 bound fat area lt sub div im) h)
    (hr : Refitted! h) {n : Nat} (hh : s.height = .ok n) (hn : n ≤ 256) :
    (∃ l, s.query (fOps3 bound fat area lt sub div im) (continuousVisitor fun b => intersectionF3 R o d b.1) () = .ok l ∧
      l.Perm (s.values.filterMap fun e => (intersectionF3 R o d (bound e.2).1).map fun p => (e.2, p))) ∧
    (∃ l, s.query (fOps3 bound fat area lt sub div im) (discreteVisitor fun b => intersectsF3 R o d b.1) () = .ok l ∧
      (l.map Prod.fst).Perm ((s.values.map Prod.snd).filter fun v => intersectsF3 R o d (bound v).1)) := by
  constructor
  · rcases c07_query _ _ (fEncloses3 bound fat area lt sub div im) hfat (fun b _ => intersectionF3 R o d b.1)
      (fun big small hc hs => (c99_mono_ray3 R o d small.2 hc).2 hs) he hd hu hr hh with ⟨-, l, h1, h2⟩ | ⟨h1, -⟩
    · exact ⟨l, h1, h2⟩
    · omega
  · rcases query_discrete _ _ (fEncloses3 bound fat area lt sub div im) hfat (fun b => intersectsF3 R o d b.1)
      (fun big small hc hs => (c99_mono_ray3 R o d small.2 hc).1 hs) he hd hu hr hh with ⟨l, h1, h2⟩ | ⟨h1, -⟩
    · exact ⟨l, h1, h2⟩
    · omega

/-- **C99, frusta.** Under any rounding, a frustum query returns exactly the values whose box the same rounded test does not call `Out`, with the relation. -/
theorem c99_frustum (bound fat : V → { b : Aabb3 F // b.Valid }) (area : Aabb3 F → S) (lt : S → S → Bool) (sub div : S → S → S) (im : S)
    (hfat : ∀ v, (fat v).1.contains (bound v).1 = true) (planes : List (PlaneF F))
    {h : Hist V} {s : Dbvt V { b : Aabb3 F // b.Valid }} (he : Exec (fOps3 bound fat area lt sub div im) h s)
    (hd : Disciplined (fOps3 bound fat area lt sub div im) h) (hu : UpToDate (fOps3 bound fat area lt sub div im) h)
    (hr : Refitted! h) {n : Nat} (hh : s.height = .ok n) (hn : n ≤ 256) :
    ∃ l, s.query (fOps3 bound fat area lt sub div im) (pureVisitor fun b _ => if frustumF R planes b.1 = .Out then none else some (frustumF R planes b.1)) () = .ok l ∧
      l.Perm (notOut (fun v => frustumF R planes (bound v).1) (s.values.map Prod.snd)) := by
  rcases c07_query _ _ (fEncloses3 bound fat area lt sub div im) hfat (fun b _ => if frustumF R planes b.1 = .Out then none else some (frustumF R planes b.1))
    (fun big small hc hs => by
      simp only at hs ⊢
      split at hs
      · cases hs
      · rename_i hne
        rw [if_neg (c99_mono_frustum R planes small.2 big.2 hc hne)]; rfl) he hd hu hr hh with ⟨-, l, h1, h2⟩ | ⟨h1, -⟩
  · refine ⟨l, h1, h2.trans (List.Perm.of_eq ?_)⟩
    simp only [notOut, exactValues, List.filterMap_map]
    refine List.filterMap_congr fun e _ => ?_
    simp only [Function.comp]
    show Option.map _ (if frustumF R planes (bound e.2).1 = .Out then none else some (frustumF R planes (bound e.2).1)) = _
    split <;> rfl
  · omega

/-! ## No box is missed in 2D if the subtractions are exact -/

/-- `x` is the representable number for the real number `r`. -/
def Rounding.Is (x : F) (r : ℝ) : Prop := R.val x = (r : EReal)

theorem between_div {lo hi o d t : ℝ} (hd : d ≠ 0) (h1 : lo ≤ o + d * t) (h2 : o + d * t ≤ hi) :
    ((lo - o) / d ≤ t ∧ t ≤ (hi - o) / d) ∨ ((hi - o) / d ≤ t ∧ t ≤ (lo - o) / d) := by
  rcases lt_or_gt_of_ne hd with h | h
  · right
    rw [div_le_iff_of_neg h, le_div_iff_of_neg h]
    constructor <;> nlinarith
  · left
    rw [div_le_iff₀ h, le_div_iff₀ h]
    constructor <;> nlinarith

/-- One axis: the rounded parameter of a point in the slab is in the rounded slab interval. -/
theorem axisF_keeps {lo hi o d : F} {lo' hi' o' d' t : ℝ} (e1 : R.Is lo lo') (e2 : R.Is hi hi') (e3 : R.Is o o') (e4 : R.Is d d') (x1 : R.Is (R.sub lo o) (lo' - o')) (x2 : R.Is (R.sub hi o) (hi' - o'))
    (h1 : lo' ≤ o' + d' * t) (h2 : o' + d' * t ≤ hi') (h0 : d' = 0 → lo' < o' ∧ o' < hi') {acc : F × F} (ha : acc.1 ≤ R.rnd t ∧ R.rnd t ≤ acc.2) :
    ∃ u, axisF R lo hi o d acc = some u ∧ u.1 ≤ R.rnd t ∧ R.rnd t ≤ u.2 := by
  unfold Rounding.Is at e1 e2 e3 e4 x1 x2
  unfold axisF
  split
  · rename_i hd
    have hd' : d' ≠ 0 := by
      rintro rfl
      apply hd
      have : R.val d = R.val R.zero := by rw [e4, R.val_zero]; rfl
      exact le_antisymm ((R.val_le _ _).1 this.le) ((R.val_le _ _).1 this.ge)
    have dv : ∀ c c' : ℝ, ((c : EReal) / (c' : EReal)) = ((c / c' : ℝ) : EReal) := fun c c' => (EReal.coe_div c c').symm
    have t1 : R.div (R.sub lo o) d = R.rnd (((lo' - o') / d' : ℝ) : EReal) := by
      unfold Rounding.div; rw [x1, e4, dv]
    have t2 : R.div (R.sub hi o) d = R.rnd (((hi' - o') / d' : ℝ) : EReal) := by
      unfold Rounding.div; rw [x2, e4, dv]
    refine ⟨_, rfl, ?_⟩
    dsimp only
    rw [t1, t2]
    rcases between_div hd' h1 h2 with ⟨g1, g2⟩ | ⟨g1, g2⟩
    · have k1 := R.rnd_mono (EReal.coe_le_coe_iff.2 g1)
      have k2 := R.rnd_mono (EReal.coe_le_coe_iff.2 g2)
      exact ⟨max_le ha.1 ((min_le_left _ _).trans k1), le_min ha.2 (k2.trans (le_max_right _ _))⟩
    · have k1 := R.rnd_mono (EReal.coe_le_coe_iff.2 g1)
      have k2 := R.rnd_mono (EReal.coe_le_coe_iff.2 g2)
      exact ⟨max_le ha.1 ((min_le_right _ _).trans k1), le_min ha.2 (k2.trans (le_max_left _ _))⟩
  · rename_i hd
    rw [not_not] at hd
    have hd' : d' = 0 := by
      have : ((d' : ℝ) : EReal) = 0 := by rw [← e4, hd, R.val_zero]
      exact_mod_cast this
    obtain ⟨g1, g2⟩ := h0 hd'
    rw [if_neg]
    · exact ⟨_, rfl, ha⟩
    · push Not
      constructor
      · by_contra hc
        push Not at hc
        have := (R.val_le _ _).2 hc
        rw [e1, e3, EReal.coe_le_coe_iff] at this
        linarith
      · by_contra hc
        push Not at hc
        have := (R.val_le _ _).2 hc
        rw [e2, e3, EReal.coe_le_coe_iff] at this
        linarith

/-- **C99, no misses.** If the four differences between the box and the origin of the ray are representable (for a ray from the origin of coordinates they always are), the rounded 2D test
reports every box that the ray really meets (at a point not on a side the ray is parallel to), under any rounding of the quotients. -/
theorem c99_no_miss2 (r : Ray2 ℝ) (b : Aabb2 ℝ) (o d : V2 F) (c : Aabb2 F) (ho : R.Is o.x r.origin.x ∧ R.Is o.y r.origin.y) (hd : R.Is d.x r.direction.x ∧ R.Is d.y r.direction.y)
    (hmin : R.Is c.min.x b.min.x ∧ R.Is c.min.y b.min.y) (hmax : R.Is c.max.x b.max.x ∧ R.Is c.max.y b.max.y)
    (hx : R.Is (R.sub c.min.x o.x) (b.min.x - r.origin.x) ∧ R.Is (R.sub c.max.x o.x) (b.max.x - r.origin.x))
    (hy : R.Is (R.sub c.min.y o.y) (b.min.y - r.origin.y) ∧ R.Is (R.sub c.max.y o.y) (b.max.y - r.origin.y))
    {t : ℝ} (ht : r.Meets b t) : intersectsF2 R o d c = true ∧ (intersectionF2 R o d c).isSome = true := by
  obtain ⟨h0, ⟨⟨m1, m2⟩, m3, m4⟩, hpx, hpy⟩ := ht
  simp only [Ray2.at, V2.add_x, V2.add_y, V2.mul_x, V2.mul_y] at m1 m2 m3 m4
  have hb : R.ninf ≤ R.rnd t ∧ R.rnd t ≤ R.inf := by
    constructor
    · rw [← R.val_le, R.val_ninf]; exact bot_le
    · rw [← R.val_le, R.val_inf]; exact le_top
  obtain ⟨u, hu, hu'⟩ := axisF_keeps R hmin.1 hmax.1 ho.1 hd.1 hx.1 hx.2 m1 m2 hpx (acc := (R.ninf, R.inf)) hb
  obtain ⟨w, hw, w1, w2⟩ := axisF_keeps R hmin.2 hmax.2 ho.2 hd.2 hy.1 hy.2 m3 m4 hpy hu'
  have hs : slabsF2 R o d c = some w := by unfold slabsF2; rw [hu]; exact hw
  have hz : R.zero ≤ R.rnd t := by
    rw [← R.rnd_val R.zero, R.val_zero]
    exact R.rnd_mono (by exact_mod_cast h0)
  constructor
  · unfold intersectsF2
    rw [hs]
    simp only [Bool.and_eq_true, decide_eq_true_eq, Bool.or_eq_true]
    exact ⟨w1.trans w2, Or.inr (hz.trans w2)⟩
  · unfold intersectionF2
    rw [hs, Option.bind_some, if_neg]
    · rfl
    · push Not
      exact ⟨fun _ => hz.trans w2, w1.trans w2⟩

/-! ## A rounding -/

/-- The whole numbers and the two infinities. -/
def Whole := { x : EReal // x = ⊥ ∨ x = ⊤ ∨ ∃ n : ℤ, x = ((n : ℝ) : EReal) }
instance : LinearOrder Whole := inferInstanceAs (LinearOrder { x : EReal // x = ⊥ ∨ x = ⊤ ∨ ∃ n : ℤ, x = ((n : ℝ) : EReal) })

/-- Rounding down, infinities kept. -/
def floorE (x : EReal) : EReal := if x = ⊥ then ⊥ else if x = ⊤ then ⊤ else ((⌊x.toReal⌋ : ℝ) : EReal)

theorem floorE_real (x : ℝ) : floorE (x : EReal) = ((⌊x⌋ : ℝ) : EReal) := by simp [floorE]

theorem floorE_mono : Monotone floorE := by
  intro a b h
  induction a with
  | bot => simp [floorE]
  | top =>
    rw [top_le_iff] at h
    rw [h]
  | coe x =>
    induction b with
    | bot => simp at h
    | top => simp [floorE]
    | coe y =>
      rw [floorE_real, floorE_real]
      have : x ≤ y := by exact_mod_cast h
      exact_mod_cast Int.floor_mono this

/-- The conditions on a rounding are met by the whole numbers with rounding down: most results are not exact. -/
def wholeRounding : Rounding Whole where
  val x := x.1
  rnd x := ⟨floorE x, by
    unfold floorE
    split
    · exact Or.inl rfl
    · split
      · exact Or.inr (Or.inl rfl)
      · exact Or.inr (Or.inr ⟨_, rfl⟩)⟩
  val_le _ _ := Iff.rfl
  rnd_mono _ _ h := floorE_mono h
  rnd_val a := by
    obtain ⟨x, rfl | rfl | ⟨n, rfl⟩⟩ := a
    · exact Subtype.ext (by simp [floorE])
    · exact Subtype.ext (by simp [floorE])
    · exact Subtype.ext (by simp [floorE_real])
  zero := ⟨0, Or.inr (Or.inr ⟨0, by simp⟩)⟩
  one := ⟨1, Or.inr (Or.inr ⟨1, by simp⟩)⟩
  inf := ⟨⊤, Or.inr (Or.inl rfl)⟩
  ninf := ⟨⊥, Or.inl rfl⟩
  val_zero := rfl
  val_one := rfl
  val_inf := rfl
  val_ninf := rfl

/-- Whole numbers subtract exactly, so no integral box is missed. -/
theorem whole_sub (a b : Whole) {x y : ℤ} (ha : wholeRounding.Is a x) (hb : wholeRounding.Is b y) : wholeRounding.Is (wholeRounding.sub a b) ((x : ℝ) - y) := by
  unfold Rounding.Is at ha hb ⊢
  show floorE (wholeRounding.val a - wholeRounding.val b) = _
  rw [ha, hb]
  have : (((x : ℝ) : EReal) - ((y : ℝ) : EReal)) = (((x : ℝ) - y : ℝ) : EReal) := (EReal.coe_sub _ _).symm
  rw [this, floorE_real]
  congr 1
  exact_mod_cast Int.floor_intCast (R := ℝ) (x - y)

/-- In it, a half is zero. -/
example : wholeRounding.div wholeRounding.one ⟨2, Or.inr (Or.inr ⟨2, by norm_cast⟩)⟩ = wholeRounding.zero := by
  refine Subtype.ext ?_
  show floorE (1 / 2) = 0
  have : (1 / 2 : EReal) = (((1 / 2 : ℝ)) : EReal) := by norm_cast
  rw [this, floorE_real]
  norm_num
end
end Verif.Dbvt
