import Verif.Scene.Pipeline
import Verif.Minkowski.Toi2Bound
import Verif.Minkowski.Rest
/-!
# Moving scenes: broad phase and time of impact together (C101)

A scene is a list of primitives that glide from one placement to another. The bound of a moving item is the union of the boxes at the start and at the end; the pairs of the broad phase are handed to
`intersection_time_of_impact`.
-/
namespace Verif.Scene
open Verif Geom Primitive Minkowski BroadPhase Dbvt
set_option linter.unusedSectionVars false
noncomputable section

/-- A primitive with the placement at the start and at the end. -/
abbrev Mover2 := Prim2 × Dec2 ℝ × Dec2 ℝ
/-- The points of a moving item at time `t`. -/
def Mover2.At (a : Mover2) (t : ℝ) : V2 ℝ → Prop := Image (Dec2.glide a.2.1 a.2.2 t).tr a.1.Points
/-- Sizes as the constructors make them, a rotation, a scale that is not zero, and a movement that neither turns nor scales. -/
def Mover2.Ok (a : Mover2) : Prop := a.1.Ok ∧ a.2.1.rot.Orthogonal ∧ a.2.1.scale ≠ 0 ∧ a.2.2.rot = a.2.1.rot ∧ a.2.2.scale = a.2.1.scale
/-- The bound of the movement: `Union` (`src/volume/aabb/aabb2.rs:124-130`) of the boxes at the start and at the end. -/
def sweptBox2 (a : Mover2) : Aabb2 ℝ := (worldBox2 (a.1, a.2.1)).union (worldBox2 (a.1, a.2.2))
/-- `GJK2::intersection_time_of_impact` (`src/algorithm/minkowski/gjk/mod.rs:163-256`) on a pair. -/
def impact2 (tolerance : ℝ) (fuel : Nat) (a b : Mover2) : Res (Option (Contact (V2 ℝ) ℝ)) :=
  gjkToi closest2 V2.normalize tolerance fuel (a.1.supportPoint a.2.1.tr) (b.1.supportPoint b.2.1.tr) (a.2.1.tr.point 0) (a.2.2.tr.point 0) (b.2.1.tr.point 0) (b.2.2.tr.point 0)
    (fun t p => (Dec2.translationInterpolate b.2.1 b.2.2 t).tr.point p)

/-- A pair for which the time of impact has an answer (C85, C93): not at relative rest, or neither a circle. -/
def Answers2 (a b : Mover2) : Prop := b.2.2.disp - b.2.1.disp ≠ a.2.2.disp - a.2.1.disp ∨ ((∀ c, a.1 ≠ .circle c) ∧ ∀ c, b.1 ≠ .circle c)

/-- A common point, and not just touching: no line with one set on each side. -/
def Overlap2 (S T : V2 ℝ → Prop) : Prop := (∃ z, S z ∧ T z) ∧ ¬ Separated2 S T

/-- The time of impact on the pairs of the broad phase: the pairs with a contact, and the contact. -/
def impacts {A C : Type} (toi : A → A → Res (Option C)) (shapes : List A) : List (Nat × Nat) → Res (List ((Nat × Nat) × C))
  | [] => pure []
  | p :: ps => do
    let a ← Res.ofOption shapes[p.1]?
    let b ← Res.ofOption shapes[p.2]?
    let o ← toi a b
    let rest ← impacts toi shapes ps
    match o with
    | none => pure rest
    | some c => pure ((p, c) :: rest)

theorem impacts_ok {A C : Type} (toi : A → A → Res (Option C)) (shapes : List A) : ∀ pairs : List (Nat × Nat),
    (∀ p ∈ pairs, ∃ a b o, shapes[p.1]? = some a ∧ shapes[p.2]? = some b ∧ toi a b = .ok o) →
    ∃ found, impacts toi shapes pairs = .ok found ∧ (found.map Prod.fst).Sublist pairs ∧
      ∀ p c, (p, c) ∈ found ↔ p ∈ pairs ∧ ∃ a b, shapes[p.1]? = some a ∧ shapes[p.2]? = some b ∧ toi a b = .ok (some c)
  | [], _ => ⟨[], rfl, List.Sublist.refl _, by simp⟩
  | p :: ps, h => by
    obtain ⟨rest, h1, h2, h3⟩ := impacts_ok toi shapes ps fun q hq => h q (List.mem_cons_of_mem _ hq)
    obtain ⟨a, b, o, ha, hb, ho⟩ := h p List.mem_cons_self
    unfold impacts
    rw [ha, hb]
    simp only [Res.ofOption_some, Res.bind_ok, ho, h1]
    cases o with
    | none =>
      refine ⟨rest, rfl, List.Sublist.cons _ h2, fun q c => ?_⟩
      rw [h3, List.mem_cons]
      constructor
      · rintro ⟨k1, k2⟩; exact ⟨Or.inr k1, k2⟩
      · rintro ⟨rfl | k1, k2⟩
        · obtain ⟨a', b', ha', hb', hc⟩ := k2
          rw [ha] at ha'; rw [hb] at hb'; cases ha'; cases hb'
          rw [ho] at hc; cases hc
        · exact ⟨k1, k2⟩
    | some c' =>
      refine ⟨_, rfl, List.Sublist.cons_cons _ h2, fun q c => ?_⟩
      rw [List.mem_cons, h3, List.mem_cons]
      constructor
      · rintro (e | ⟨k1, k2⟩)
        · cases e; exact ⟨Or.inl rfl, a, b, ha, hb, ho⟩
        · exact ⟨Or.inr k1, k2⟩
      · rintro ⟨rfl | k1, k2⟩
        · obtain ⟨a', b', ha', hb', hc⟩ := k2
          rw [ha] at ha'; rw [hb] at hb'; cases ha'; cases hb'
          rw [ho] at hc; cases hc; exact Or.inl rfl
        · exact Or.inr ⟨k1, k2⟩

theorem mem_of_contains2 {A B : Aabb2 ℝ} (h : A.contains B = true) {p : V2 ℝ} (hp : B.Mem p) : A.Mem p := by
  simp only [Aabb2.contains, Bool.and_eq_true, decide_eq_true_eq] at h
  obtain ⟨⟨p1, p2⟩, p3, p4⟩ := hp
  obtain ⟨⟨⟨g1, g2⟩, g3⟩, g4⟩ := h
  exact ⟨⟨by linarith, by linarith⟩, by linarith, by linarith⟩

/-- An overlap of positive depth is an overlap. -/
theorem Deep2.overlap {S T : V2 ℝ → Prop} {r : ℝ} (hr : 0 < r) (h : Deep2 S T r) : Overlap2 S T := by
  constructor
  · obtain ⟨x, y, hx, hy, e⟩ := h 0 (by simp [V2.norm, V2.dot, hr.le])
    have : x = y := by
      have e1 := congrArg V2.x e
      have e2 := congrArg V2.y e
      simp at e1 e2
      ext <;> linarith
    exact ⟨x, hx, this ▸ hy⟩
  · rintro ⟨d, hd, hs⟩
    have hdd := dot_self_pos2 hd
    have hn : 0 < d.norm := Real.sqrt_pos.2 hdd
    obtain ⟨x, y, hx, hy, e⟩ := h (d * (r / d.norm)) (by rw [V2.norm_smul, abs_of_pos (by positivity)]; field_simp; exact le_rfl)
    have h1 := hs x y hx hy
    have h2 : (x - y).dot d = r / d.norm * d.dot d := by rw [e]; simp only [V2.dot, V2.mul_x, V2.mul_y]; ring
    have h3 : 0 < r / d.norm * d.dot d := by positivity
    simp only [V2.dot, V2.sub_x, V2.sub_y] at h1 h2 h3
    linarith

theorem Mover2.at_start {a : Mover2} {t : ℝ} (ha : a.Ok) {p : V2 ℝ} (hp : a.At t p) : ∃ x y, (worldBox2 (a.1, a.2.1)).Mem x ∧ (worldBox2 (a.1, a.2.2)).Mem y ∧ p = x + (y - x) * t := by
  obtain ⟨q, hq, rfl⟩ := hp
  refine ⟨a.2.1.tr.point q, a.2.2.tr.point q, worldBox2_mem (a := (a.1, a.2.1)) ha.1 ⟨q, hq, rfl⟩, worldBox2_mem (a := (a.1, a.2.2)) ha.1 ⟨q, hq, rfl⟩, ?_⟩
  obtain ⟨-, -, -, h1, h2⟩ := ha
  simp only [Dec2.glide, Dec2.tr, h1, h2]
  ext <;> simp <;> ring

/-- The bound of the movement holds all points of the item at all times. -/
theorem sweptBox2_mem {a : Mover2} (ha : a.Ok) {t : ℝ} (h0 : 0 ≤ t) (h1 : t ≤ 1) {p : V2 ℝ} (hp : a.At t p) : (sweptBox2 a).Mem p := by
  obtain ⟨x, y, hx, hy, rfl⟩ := Mover2.at_start ha hp
  obtain ⟨-, c1, c2⟩ := c25_union_contains2 (worldBox2 (a.1, a.2.1)) (worldBox2 (a.1, a.2.2))
  have hX := mem_of_contains2 c1 hx
  have hY := mem_of_contains2 c2 hy
  have key : ∀ {lo hi u v : ℝ}, lo ≤ u → u ≤ hi → lo ≤ v → v ≤ hi → lo ≤ u + (v - u) * t ∧ u + (v - u) * t ≤ hi := by
    intro lo hi u v a1 a2 a3 a4
    constructor <;> nlinarith
  exact ⟨key hX.1.1 hX.1.2 hY.1.1 hY.1.2, key hX.2.1 hX.2.2 hY.2.1 hY.2.2⟩

theorem within_boxes2 {A B : Aabb2 ℝ} {S T : V2 ℝ → Prop} (hS : ∀ x, S x → A.Mem x) (hT : ∀ y, T y → B.Mem y) : ∃ w, 0 ≤ w ∧ Within2 S T w := by
  refine ⟨(|A.min.x| + |A.max.x| + |B.min.x| + |B.max.x|) + (|A.min.y| + |A.max.y| + |B.min.y| + |B.max.y|), by positivity, fun x y hx hy => ?_⟩
  obtain ⟨⟨a1, a2⟩, a3, a4⟩ := hS x hx
  obtain ⟨⟨b1, b2⟩, b3, b4⟩ := hT y hy
  have key : ∀ {lo hi lo' hi' u v : ℝ}, lo ≤ u → u ≤ hi → lo' ≤ v → v ≤ hi' → |u - v| ≤ |lo| + |hi| + |lo'| + |hi'| := by
    intro lo hi lo' hi' u v h1 h2 h3 h4
    have e1 := abs_nonneg lo
    have e2 := abs_nonneg hi
    have e3 := abs_nonneg lo'
    have e4 := abs_nonneg hi'
    rw [abs_le]
    constructor <;> linarith [neg_abs_le lo, le_abs_self hi, neg_abs_le lo', le_abs_self hi']
  have k1 := key a1 a2 b1 b2
  have k2 := key a3 a4 b3 b4
  rw [V2.norm_le_iff _ (by positivity)]
  have e1 := abs_nonneg (x.x - y.x)
  have e2 := abs_nonneg (x.y - y.y)
  simp only [V2.dot, V2.sub_x, V2.sub_y]
  rw [← abs_mul_abs_self (x.x - y.x), ← abs_mul_abs_self (x.y - y.y)]
  nlinarith

/-- One pair: with enough iterations the time of impact answers. -/
theorem impact2_total {tolerance : ℝ} (htol : 0 < tolerance) {a b : Mover2} (ha : a.Ok) (hb : b.Ok) (h : Answers2 a b) : ∃ N, ∀ fuel, N ≤ fuel → ∃ r, impact2 tolerance fuel a b = .ok r := by
  rcases h with h | ⟨h1, h2⟩
  · obtain ⟨w, -, hw⟩ := within_boxes2 (fun x hx => worldBox2_mem (a := (a.1, a.2.1)) ha.1 hx) (fun x hx => worldBox2_mem (a := (b.1, b.2.1)) hb.1 hx)
    obtain ⟨J, hJ⟩ := exists_nat_ge ((w + ((b.2.2.tr.point 0 - b.2.1.tr.point 0) - (a.2.2.tr.point 0 - a.2.1.tr.point 0)).norm) ^ 2 / tolerance)
    refine ⟨6 * J ^ 2 + 8 * J + 3, fun fuel hf => ?_⟩
    exact c85_curved_prim2 a.1 b.1 ha.1 hb.1 a.2.1 a.2.2 b.2.1 b.2.2 ha.2.1 hb.2.1 ha.2.2.1 hb.2.2.1 htol hw (by simp only [tr_zero2]; exact h) J ((div_le_iff₀ htol).1 hJ) fuel hf
  · exact ⟨_, fun fuel hf => c85_prim2_partial a.1 b.1 ha.1 hb.1 h1 h2 a.2.1 a.2.2 b.2.1 b.2.2 ha.2.1 hb.2.1 ha.2.2.1 hb.2.2.1 htol.le fuel hf⟩

/-- What the search for impacts owes its caller, for the pairs of `Q`. -/
structure Impacts2 (tolerance : ℝ) (scene : List Mover2) (Q : Nat → Nat → Prop) (found : List ((Nat × Nat) × Contact (V2 ℝ) ℝ)) : Prop where
  /-- no pair is reported twice -/
  once : (found.map Prod.fst).Nodup
  /-- a reported pair has no common point before the time of the contact, and at that time two points that are nearly the same -/
  sound : ∀ i j c, ((i, j), c) ∈ found → i < j ∧ Q i j ∧ ∃ a b, scene[i]? = some a ∧ scene[j]? = some b ∧ 0 ≤ c.toi ∧ c.toi ≤ 1 ∧
    (∀ t, 0 ≤ t → t < c.toi → ¬ ∃ z, a.At t z ∧ b.At t z) ∧ ∃ x y, a.At c.toi x ∧ b.At c.toi y ∧ (x - y).norm = c.depth ∧ c.depth * c.depth ≤ tolerance
  /-- a pair that overlaps at some time of the step is reported, with a time that is not later -/
  complete : ∀ i j a b t, i < j → Q i j → scene[i]? = some a → scene[j]? = some b → 0 ≤ t → t ≤ 1 → Overlap2 (a.At t) (b.At t) → ∃ c, ((i, j), c) ∈ found ∧ c.toi ≤ t

theorem pairwise_get {A : Type} {R : A → A → Prop} {l : List A} (h : l.Pairwise R) {i j : Nat} {a b : A} (hij : i < j) (ha : l[i]? = some a) (hb : l[j]? = some b) : R a b := by
  obtain ⟨h1, rfl⟩ := List.getElem?_eq_some_iff.1 ha
  obtain ⟨h2, rfl⟩ := List.getElem?_eq_some_iff.1 hb
  exact List.pairwise_iff_getElem.1 h i j h1 h2 hij

theorem answers2_symm {a b : Mover2} (h : Answers2 a b) : Answers2 b a := by
  rcases h with h | ⟨h1, h2⟩
  · exact Or.inl (Ne.symm h)
  · exact Or.inr ⟨h2, h1⟩

theorem impacts2_exact {tolerance : ℝ} (htol : 0 < tolerance) {scene : List Mover2} (hok : ∀ a ∈ scene, a.Ok) (hans : scene.Pairwise Answers2)
    {pairs : List (Nat × Nat)} (hnd : pairs.Nodup) {Q : Nat → Nat → Prop} (hp : ∀ i j, (i, j) ∈ pairs ↔ i < j ∧ Hit sweptBox2 Aabb2.intersects scene i j ∧ Q i j) :
    ∃ N, ∀ fuel, N ≤ fuel → ∃ found, impacts (impact2 tolerance fuel) scene pairs = .ok found ∧ Impacts2 tolerance scene Q found := by
  have mem : ∀ {i : Nat} {a}, scene[i]? = some a → a ∈ scene := fun h => List.mem_of_getElem? h
  -- one number of iterations for all pairs
  have hN : ∃ N, ∀ fuel, N ≤ fuel → ∀ p ∈ pairs, ∃ a b o, scene[p.1]? = some a ∧ scene[p.2]? = some b ∧ impact2 tolerance fuel a b = .ok o := by
    have gen : ∀ l : List (Nat × Nat), (∀ p ∈ l, p ∈ pairs) → ∃ N, ∀ fuel, N ≤ fuel → ∀ p ∈ l, ∃ a b o, scene[p.1]? = some a ∧ scene[p.2]? = some b ∧ impact2 tolerance fuel a b = .ok o := by
      intro l
      induction l with
      | nil => intro _; exact ⟨0, fun _ _ => by simp⟩
      | cons p l ih =>
        intro hl
        obtain ⟨N, hN⟩ := ih fun q hq => hl q (List.mem_cons_of_mem _ hq)
        obtain ⟨hij, ⟨a, b, ha, hb, -⟩, -⟩ := (hp p.1 p.2).1 (hl p List.mem_cons_self)
        obtain ⟨M, hM⟩ := impact2_total htol (hok a (mem ha)) (hok b (mem hb)) (pairwise_get hans hij ha hb)
        refine ⟨max N M, fun fuel hf => ?_⟩
        rw [List.forall_mem_cons]
        obtain ⟨o, ho⟩ := hM fuel (le_trans (le_max_right _ _) hf)
        exact ⟨⟨a, b, o, ha, hb, ho⟩, hN fuel (le_trans (le_max_left _ _) hf)⟩
    exact gen pairs fun _ h => h
  obtain ⟨N, hN⟩ := hN
  refine ⟨N, fun fuel hf => ?_⟩
  obtain ⟨found, f1, f2, f3⟩ := impacts_ok (impact2 tolerance fuel) scene pairs (hN fuel hf)
  refine ⟨found, f1, hnd.sublist f2, ?_, ?_⟩
  · intro i j c hc
    obtain ⟨k1, a, b, ha, hb, k2⟩ := (f3 _ _).1 hc
    obtain ⟨hij, -, hQ⟩ := (hp i j).1 k1
    have oka := hok a (mem ha)
    have okb := hok b (mem hb)
    obtain ⟨-, g⟩ := c66_prim2 a.1 b.1 oka.1 okb.1 a.2.1 a.2.2 b.2.1 b.2.2 oka.2.1 okb.2.1 oka.2.2.1 okb.2.2.1 htol.le fuel k2
    obtain ⟨g1, g2, g3, g4, ⟨x, y, hx, hy, e⟩, -⟩ := g c rfl
    exact ⟨hij, hQ, a, b, ha, hb, g1, g2, g3, x, y, hx, hy, e, g4⟩
  · rintro i j a b t hij hQ ha hb t0 t1 ⟨hz, hns⟩
    have oka := hok a (mem ha)
    have okb := hok b (mem hb)
    have hm : (i, j) ∈ pairs := by
      refine (hp i j).2 ⟨hij, ⟨a, b, ha, hb, ?_⟩, hQ⟩
      by_contra h
      exact hns (apart_boxes2 (fun _ => sweptBox2_mem oka t0 t1) (fun _ => sweptBox2_mem okb t0 t1) (by simpa using h))
    obtain ⟨a', b', o, ha', hb', ho⟩ := hN fuel hf _ hm
    simp only at ha' hb'
    rw [ha] at ha'; rw [hb] at hb'; cases ha'; cases hb'
    obtain ⟨g0, g⟩ := c66_prim2 a.1 b.1 oka.1 okb.1 a.2.1 a.2.2 b.2.1 b.2.2 oka.2.1 okb.2.1 oka.2.2.1 okb.2.2.1 htol.le fuel ho
    cases o with
    | none => exact absurd hz (g0 rfl t t0 t1)
    | some c =>
      refine ⟨c, (f3 _ _).2 ⟨hm, a, b, ha, hb, ho⟩, ?_⟩
      by_contra hlt
      exact (g c rfl).2.2.1 t t0 (not_le.1 hlt) hz

/-- **C101 (2D), brute force.** -/
theorem c101_brute2 {tolerance : ℝ} (htol : 0 < tolerance) (scene : List Mover2) (hok : ∀ a ∈ scene, a.Ok)
    (hans : scene.Pairwise Answers2) :
    ∃ pairs N, bruteForce sweptBox2 Aabb2.intersects scene = .ok pairs ∧
      ∀ fuel, N ≤ fuel → ∃ found, impacts (impact2 tolerance fuel) scene pairs = .ok found ∧ Impacts2 tolerance scene (fun _ _ => True) found := by
  obtain ⟨l, h1, h2, h3⟩ := c19_brute_force sweptBox2 Aabb2.intersects scene
  obtain ⟨N, hN⟩ := impacts2_exact htol hok hans (pairs := l) h2.nodup (Q := fun _ _ => True) (by intro i j; rw [h3]; simp)
  exact ⟨l, N, h1, hN⟩

/-- **C101 (2D), sweep and prune** (positions in the list as the algorithm leaves it). -/
theorem c101_sweep2 {σ : Type} {tolerance : ℝ} (htol : 0 < tolerance) (v : VarOps σ (Aabb2 ℝ)) (s : Sap σ) (hax : s.sweep_axis < 2) (scene : List Mover2) (hok : ∀ a ∈ scene, a.Ok)
    (hans : scene.Pairwise Answers2) :
    ∃ pairs scene' s' N, s.findColliderPairs sapAabb2 v sweptBox2 scene = .ok (pairs, scene', s') ∧ scene'.Perm scene ∧
      ∀ fuel, N ≤ fuel → ∃ found, impacts (impact2 tolerance fuel) scene' pairs = .ok found ∧ Impacts2 tolerance scene' (fun _ _ => True) found := by
  obtain ⟨l, scene', s', h1, h2, h3, h4⟩ := c20_boxes2 v sweptBox2 s scene hax
  obtain ⟨N, hN⟩ := impacts2_exact htol (scene := scene') (fun a ha => hok a (h2.mem_iff.1 ha)) ((h2.pairwise_iff answers2_symm).2 hans)
    (pairs := l) h3 (Q := fun _ _ => True) (by intro i j; rw [h4]; simp)
  exact ⟨l, scene', s', N, h1, h2, hN⟩

/-- **C101 (2D), tree**, after any disciplined history of calls that ends in a refit: the pairs with a dirty item. -/
theorem c101_tree2 {V S : Type} {tolerance : ℝ} (htol : 0 < tolerance) (item : V → Mover2) (fat : V → Aabb2 ℝ)
    (hfat : ∀ v, (fat v).contains (sweptBox2 (item v)) = true) (area : Aabb2 ℝ → S) (lt : S → S → Bool) (sub div : S → S → S) (im : S)
    {h : Hist V} {s : Dbvt V (Aabb2 ℝ)} (he : Exec (roundOps2 (fun v => sweptBox2 (item v)) fat area lt sub div im) h s)
    (hd : Disciplined (roundOps2 (fun v => sweptBox2 (item v)) fat area lt sub div im) h) (hu : UpToDate (roundOps2 (fun v => sweptBox2 (item v)) fat area lt sub div im) h)
    (hr : Refitted! h) {n : Nat} (hh : s.height = .ok n) (hn : n ≤ 256) (dirty : List Bool) (hdirty : s.values.length ≤ dirty.length) (hok : ∀ e ∈ s.values, (item e.2).Ok)
    (hans : (s.values.map fun e => item e.2).Pairwise Answers2) :
    ∃ pairs N, dbvtPairs (roundOps2 (fun v => sweptBox2 (item v)) fat area lt sub div im) Aabb2.intersects s dirty = .ok pairs ∧
      ∀ fuel, N ≤ fuel → ∃ found, impacts (impact2 tolerance fuel) (s.values.map fun e => item e.2) pairs = .ok found ∧
        Impacts2 tolerance (s.values.map fun e => item e.2) (fun i j => Dirty dirty i ∨ Dirty dirty j) found := by
  rcases (c81_pairs2 _ fat area lt sub div im hfat he hd hu hr hh).1 dirty hdirty with ⟨l, h1, h2, h3⟩ | ⟨h1, -⟩
  · have conv : ∀ i j, Hit (fun e : Nat × V => sweptBox2 (item e.2)) Aabb2.intersects s.values i j ↔ Hit sweptBox2 Aabb2.intersects (s.values.map fun e => item e.2) i j := by
      intro i j
      simp only [Hit, List.getElem?_map, Option.map_eq_some_iff]
      constructor
      · rintro ⟨a, b, ha, hb, hi⟩; exact ⟨_, _, ⟨a, ha, rfl⟩, ⟨b, hb, rfl⟩, hi⟩
      · rintro ⟨_, _, ⟨a, ha, rfl⟩, ⟨b, hb, rfl⟩, hi⟩; exact ⟨a, b, ha, hb, hi⟩
    obtain ⟨N, hN⟩ := impacts2_exact htol (scene := s.values.map fun e => item e.2) (by
      intro a ha
      obtain ⟨e, he', rfl⟩ := List.mem_map.1 ha
      exact hok e he') hans (pairs := l) h2.nodup (Q := fun i j => Dirty dirty i ∨ Dirty dirty j) (by intro i j; rw [h3, conv])
    exact ⟨l, N, h1, hN⟩
  · omega

/-- A concrete scene: a unit circle that rests and one that flies through it. The pair is found, with a time of at most one half. -/
theorem c101_example {tolerance : ℝ} (htol : 0 < tolerance) : ∃ pairs N, bruteForce sweptBox2 Aabb2.intersects [(.circle ⟨1⟩, at2 ⟨0, 0⟩, at2 ⟨0, 0⟩), (.circle ⟨1⟩, at2 ⟨10, 0⟩, at2 ⟨-10, 0⟩)] = .ok pairs ∧
    ∀ fuel, N ≤ fuel → ∃ found c, impacts (impact2 tolerance fuel) [(.circle ⟨1⟩, at2 ⟨0, 0⟩, at2 ⟨0, 0⟩), (.circle ⟨1⟩, at2 ⟨10, 0⟩, at2 ⟨-10, 0⟩)] pairs = .ok found ∧ ((0, 1), c) ∈ found ∧ c.toi ≤ 1 / 2 := by
  have ok : ∀ p q : V2 ℝ, Mover2.Ok (.circle ⟨1⟩, at2 p, at2 q) := fun p q => ⟨zero_le_one, by simp [at2, M2.Orthogonal, V2.dot], by simp [at2], rfl, rfl⟩
  obtain ⟨pairs, N, h1, h2⟩ := c101_brute2 htol [(.circle ⟨1⟩, at2 ⟨0, 0⟩, at2 ⟨0, 0⟩), (.circle ⟨1⟩, at2 ⟨10, 0⟩, at2 ⟨-10, 0⟩)] (by simp [ok]) (by
    simp only [List.pairwise_cons, List.mem_singleton, forall_eq, List.not_mem_nil, false_imp_iff, implies_true, List.Pairwise.nil, and_true]
    refine Or.inl fun e => ?_
    have := congrArg V2.x e
    simp [at2] at this
    norm_num at this)
  refine ⟨pairs, N, h1, fun fuel hf => ?_⟩
  obtain ⟨found, f1, f2⟩ := h2 fuel hf
  have at_iff : ∀ (p q : V2 ℝ) (t : ℝ) (z : V2 ℝ), p + (q - p) * t = 0 → z.norm ≤ 1 → Mover2.At (.circle ⟨1⟩, at2 p, at2 q) t z := by
    intro p q t z e hz
    refine ⟨z, hz, ?_⟩
    have e1 := congrArg V2.x e
    have e2 := congrArg V2.y e
    simp at e1 e2
    simp only [Dec2.glide, at2, Dec2.tr, M2.apply]
    ext <;> simp
    · linarith
    · linarith
  obtain ⟨c, c1, c2⟩ := f2.complete 0 1 (.circle ⟨1⟩, at2 ⟨0, 0⟩, at2 ⟨0, 0⟩) (.circle ⟨1⟩, at2 ⟨10, 0⟩, at2 ⟨-10, 0⟩) (1 / 2) (by omega) trivial rfl rfl (by norm_num) (by norm_num)
    (Deep2.overlap (r := 1) one_pos (fun t ht => ⟨t, 0, at_iff _ _ _ _ (by ext <;> simp) ht, at_iff _ _ _ _ (by ext <;> simp; norm_num) (by simp [V2.norm, V2.dot]), by ext <;> simp⟩))
  exact ⟨found, c, f1, c1, c2⟩

/-! ## 3D -/

/-- A primitive with the placement at the start and at the end. -/
abbrev Mover3 := Prim3 × Dec3 ℝ × Dec3 ℝ
/-- The points of a moving item at time `t`. -/
def Mover3.At (a : Mover3) (t : ℝ) : V3 ℝ → Prop := Image (Dec3.glide a.2.1 a.2.2 t).tr a.1.Points
/-- Sizes as the constructors make them, a rotation, a scale that is not zero, and a movement that neither turns nor scales. -/
def Mover3.Ok (a : Mover3) : Prop := a.1.Ok ∧ a.2.1.rot.Orthogonal ∧ a.2.1.scale ≠ 0 ∧ a.2.2.rot = a.2.1.rot ∧ a.2.2.scale = a.2.1.scale
/-- The bound of the movement: `Union` (`src/volume/aabb/aabb3.rs:156-162`) of the boxes at the start and at the end. -/
def sweptBox3 (a : Mover3) : Aabb3 ℝ := (worldBox3 (a.1, a.2.1)).union (worldBox3 (a.1, a.2.2))
/-- `GJK3::intersection_time_of_impact` (`src/algorithm/minkowski/gjk/mod.rs:163-256`) on a pair. -/
def impact3 (nz : Mover3 → V3 ℝ → Bool) (tolerance : ℝ) (fuel : Nat) (a b : Mover3) : Res (Option (Contact (V3 ℝ) ℝ)) :=
  gjkToi closest3 V3.normalize tolerance fuel (a.1.supportPoint (nz a) a.2.1.tr) (b.1.supportPoint (nz b) b.2.1.tr) (a.2.1.tr.point 0) (a.2.2.tr.point 0) (b.2.1.tr.point 0) (b.2.2.tr.point 0)
    (fun t p => (Dec3.translationInterpolate b.2.1 b.2.2 t).tr.point p)
/-- A common point, and not just touching: no plane with one set on each side. -/
def Overlap3 (S T : V3 ℝ → Prop) : Prop := (∃ z, S z ∧ T z) ∧ ¬ Separated3 S T

theorem mem_of_contains3 {A B : Aabb3 ℝ} (h : A.contains B = true) {p : V3 ℝ} (hp : B.Mem p) : A.Mem p := by
  simp only [Aabb3.contains, Bool.and_eq_true, decide_eq_true_eq] at h
  obtain ⟨⟨p1, p2⟩, ⟨p3, p4⟩, p5, p6⟩ := hp
  obtain ⟨⟨⟨⟨⟨g1, g2⟩, g3⟩, g4⟩, g5⟩, g6⟩ := h
  exact ⟨⟨by linarith, by linarith⟩, ⟨by linarith, by linarith⟩, by linarith, by linarith⟩

/-- The bound of the movement holds all points of the item at all times. -/
theorem sweptBox3_mem {a : Mover3} (ha : a.Ok) {t : ℝ} (h0 : 0 ≤ t) (h1 : t ≤ 1) {p : V3 ℝ} (hp : a.At t p) : (sweptBox3 a).Mem p := by
  obtain ⟨q, hq, rfl⟩ := hp
  have hx := worldBox3_mem (a := (a.1, a.2.1)) ha.1 ⟨q, hq, rfl⟩
  have hy := worldBox3_mem (a := (a.1, a.2.2)) ha.1 ⟨q, hq, rfl⟩
  have e : (Dec3.glide a.2.1 a.2.2 t).tr.point q = a.2.1.tr.point q + (a.2.2.tr.point q - a.2.1.tr.point q) * t := by
    obtain ⟨-, -, -, h1, h2⟩ := ha
    simp only [Dec3.glide, Dec3.tr, h1, h2]
    ext <;> simp <;> ring
  obtain ⟨-, c1, c2⟩ := c25_union_contains3 (worldBox3 (a.1, a.2.1)) (worldBox3 (a.1, a.2.2))
  have hX := mem_of_contains3 c1 hx
  have hY := mem_of_contains3 c2 hy
  have key : ∀ {lo hi u v : ℝ}, lo ≤ u → u ≤ hi → lo ≤ v → v ≤ hi → lo ≤ u + (v - u) * t ∧ u + (v - u) * t ≤ hi := by
    intro lo hi u v a1 a2 a3 a4
    constructor <;> nlinarith
  rw [e]
  exact ⟨key hX.1.1 hX.1.2 hY.1.1 hY.1.2, key hX.2.1.1 hX.2.1.2 hY.2.1.1 hY.2.1.2, key hX.2.2.1 hX.2.2.2 hY.2.2.1 hY.2.2.2⟩

/-- What the search for impacts owes its caller, for the pairs of `Q`; see `Impacts2`. -/
structure Impacts3 (tolerance : ℝ) (scene : List Mover3) (Q : Nat → Nat → Prop) (found : List ((Nat × Nat) × Contact (V3 ℝ) ℝ)) : Prop where
  once : (found.map Prod.fst).Nodup
  sound : ∀ i j c, ((i, j), c) ∈ found → i < j ∧ Q i j ∧ ∃ a b, scene[i]? = some a ∧ scene[j]? = some b ∧ 0 ≤ c.toi ∧ c.toi ≤ 1 ∧
    (∀ t, 0 ≤ t → t < c.toi → ¬ ∃ z, a.At t z ∧ b.At t z) ∧ ∃ x y, a.At c.toi x ∧ b.At c.toi y ∧ (x - y).norm = c.depth ∧ c.depth * c.depth ≤ tolerance
  complete : ∀ i j a b t, i < j → Q i j → scene[i]? = some a → scene[j]? = some b → 0 ≤ t → t ≤ 1 → Overlap3 (a.At t) (b.At t) → ∃ c, ((i, j), c) ∈ found ∧ c.toi ≤ t

/-- A search that answers has asked every pair. -/
theorem impacts_inv {A C : Type} (toi : A → A → Res (Option C)) (shapes : List A) : ∀ (pairs : List (Nat × Nat)) {found}, impacts toi shapes pairs = .ok found →
    ∀ p ∈ pairs, ∃ a b o, shapes[p.1]? = some a ∧ shapes[p.2]? = some b ∧ toi a b = .ok o
  | [], _, _ => by simp
  | p :: ps, found, h => by
    unfold impacts at h
    obtain ⟨a, ha, h⟩ := Res.bind_eq_ok.1 h
    obtain ⟨b, hb, h⟩ := Res.bind_eq_ok.1 h
    obtain ⟨o, ho, h⟩ := Res.bind_eq_ok.1 h
    obtain ⟨rest, hr, h⟩ := Res.bind_eq_ok.1 h
    rw [List.forall_mem_cons]
    refine ⟨⟨a, b, o, ?_, ?_, ho⟩, impacts_inv toi shapes ps hr⟩
    · cases e : shapes[p.1]? with
      | none => rw [e] at ha; cases ha
      | some a' => rw [e] at ha; cases ha; rfl
    · cases e : shapes[p.2]? with
      | none => rw [e] at hb; cases hb
      | some a' => rw [e] at hb; cases hb; rfl

theorem impacts3_exact (nz : Mover3 → V3 ℝ → Bool) {tolerance : ℝ} (htol : 0 < tolerance) {scene : List Mover3} (hok : ∀ a ∈ scene, a.Ok) {pairs : List (Nat × Nat)} (hnd : pairs.Nodup)
    {Q : Nat → Nat → Prop} (hp : ∀ i j, (i, j) ∈ pairs ↔ i < j ∧ Hit sweptBox3 Aabb3.intersects scene i j ∧ Q i j) (fuel : Nat) {found} (hf : impacts (impact3 nz tolerance fuel) scene pairs = .ok found) :
    Impacts3 tolerance scene Q found := by
  have mem : ∀ {i : Nat} {a}, scene[i]? = some a → a ∈ scene := fun h => List.mem_of_getElem? h
  have hN := impacts_inv _ _ _ hf
  obtain ⟨found', f1, f2, f3⟩ := impacts_ok (impact3 nz tolerance fuel) scene pairs hN
  rw [hf] at f1; cases f1
  refine ⟨hnd.sublist f2, ?_, ?_⟩
  · intro i j c hc
    obtain ⟨k1, a, b, ha, hb, k2⟩ := (f3 _ _).1 hc
    obtain ⟨hij, -, hQ⟩ := (hp i j).1 k1
    have oka := hok a (mem ha)
    have okb := hok b (mem hb)
    obtain ⟨-, g⟩ := c66_prim3 a.1 b.1 oka.1 okb.1 (nz a) (nz b) a.2.1 a.2.2 b.2.1 b.2.2 oka.2.1 okb.2.1 oka.2.2.1 okb.2.2.1 htol.le fuel k2
    obtain ⟨g1, g2, g3, g4, ⟨x, y, hx, hy, e⟩, -⟩ := g c rfl
    exact ⟨hij, hQ, a, b, ha, hb, g1, g2, g3, x, y, hx, hy, e, g4⟩
  · rintro i j a b t hij hQ ha hb t0 t1 ⟨hz, hns⟩
    have oka := hok a (mem ha)
    have okb := hok b (mem hb)
    have hm : (i, j) ∈ pairs := by
      refine (hp i j).2 ⟨hij, ⟨a, b, ha, hb, ?_⟩, hQ⟩
      by_contra h
      exact hns (apart_boxes3 (fun _ => sweptBox3_mem oka t0 t1) (fun _ => sweptBox3_mem okb t0 t1) (by simpa using h))
    obtain ⟨a', b', o, ha', hb', ho⟩ := hN _ hm
    simp only at ha' hb'
    rw [ha] at ha'; rw [hb] at hb'; cases ha'; cases hb'
    obtain ⟨g0, g⟩ := c66_prim3 a.1 b.1 oka.1 okb.1 (nz a) (nz b) a.2.1 a.2.2 b.2.1 b.2.2 oka.2.1 okb.2.1 oka.2.2.1 okb.2.2.1 htol.le fuel ho
    cases o with
    | none => exact absurd hz (g0 rfl t t0 t1)
    | some c =>
      refine ⟨c, (f3 _ _).2 ⟨hm, a, b, ha, hb, ho⟩, ?_⟩
      by_contra hlt
      exact (g c rfl).2.2.1 t t0 (not_le.1 hlt) hz

/-- **C101 (3D)**, every primitive, brute force and sweep and prune, for every run that answers (the time of impact of some pairs does not return in 3D, C85). -/
theorem c101_3d_partial {σ : Type} (nz : Mover3 → V3 ℝ → Bool) {tolerance : ℝ} (htol : 0 < tolerance) (v : VarOps σ (Aabb3 ℝ)) (s : Sap σ) (hax : s.sweep_axis < 3) (scene : List Mover3)
    (hok : ∀ a ∈ scene, a.Ok) :
    (∃ pairs, bruteForce sweptBox3 Aabb3.intersects scene = .ok pairs ∧
      ∀ fuel found, impacts (impact3 nz tolerance fuel) scene pairs = .ok found → Impacts3 tolerance scene (fun _ _ => True) found) ∧
    ∃ pairs scene' s', s.findColliderPairs sapAabb3 v sweptBox3 scene = .ok (pairs, scene', s') ∧ scene'.Perm scene ∧
      ∀ fuel found, impacts (impact3 nz tolerance fuel) scene' pairs = .ok found → Impacts3 tolerance scene' (fun _ _ => True) found := by
  constructor
  · obtain ⟨l, h1, h2, h3⟩ := c19_brute_force sweptBox3 Aabb3.intersects scene
    exact ⟨l, h1, fun fuel found hf => impacts3_exact nz htol hok h2.nodup (Q := fun _ _ => True) (by intro i j; rw [h3]; simp) fuel hf⟩
  · obtain ⟨l, scene', s', h1, h2, h3, h4⟩ := c20_boxes3 v sweptBox3 s scene hax
    exact ⟨l, scene', s', h1, h2, fun fuel found hf => impacts3_exact nz htol (fun a ha => hok a (h2.mem_iff.1 ha)) h3 (Q := fun _ _ => True) (by intro i j; rw [h4]; simp) fuel hf⟩

end
end Verif.Scene
