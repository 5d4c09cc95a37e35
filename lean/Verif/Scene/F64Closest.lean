import Verif.Scene.F64Ray
import Verif.Dbvt.RayOutside
import Verif.Scene.Pipeline
/-!
# The closest hit of a ray in rounded arithmetic (C111)

`query_ray_closest` compares rounded dot products. All its operations are monotone in the parameter of the hit, so pruning is exact for the rounded distances; and these are the exact ones up to rounding.
-/
namespace Verif.Scene
open Verif Geom Dbvt Minkowski BroadPhase
set_option linter.unusedSectionVars false
noncomputable section
open Classical
variable {F : Type} [LinearOrder F] {R : Rounding F} {u η Ω M D : ℝ}

/-! ## The rounded distance -/

variable (R) in
/-- One summand of `(point - ray.origin).dot(ray.direction)`, rounded. -/
def termF (o d p : F) : F := R.mul (R.sub p o) d
variable (R) in
/-- `(point - ray.origin).dot(ray.direction)` in 2D, rounded, `src/dbvt/util.rs:58-59, 106-107` -/
def rayTF2 (o d p : V2 F) : F := R.add (termF R o.x d.x p.x) (termF R o.y d.y p.y)
variable (R) in
/-- The summand with NaN. -/
def termN (o d : F) (p : WithNan F) : WithNan F := R.mulN (p.bind fun p => R.subN p o) (some d)
variable (R) in
/-- `(point - ray.origin).dot(ray.direction)` in 3D, rounded, `src/dbvt/util.rs:58-59, 106-107` -/
def rayTN3 (o d : V3 F) (p : V3 (WithNan F)) : WithNan F := R.addN (R.addN (termN R o.x d.x p.x) (termN R o.y d.y p.y)) (termN R o.z d.z p.z)

theorem mul_sign (d : F) : (Monotone (fun c => R.mul c d) ∧ Monotone (fun c => R.mul d c)) ∨ (Antitone (fun c => R.mul c d) ∧ Antitone (fun c => R.mul d c)) := by
  have e : (fun c => R.mul d c) = fun c => R.mul c d := by
    funext c
    unfold Rounding.mul
    rw [mul_comm]
  rw [e]
  exact (R.mul_way d).imp (fun h => ⟨h, h⟩) (fun h => ⟨h, h⟩)
/-- A summand is monotone in the parameter of the point. -/
theorem term_mono (o d : F) : Monotone fun t => termF R o d (R.add o (R.mul d t)) := by
  intro s t h
  show R.mul (R.sub (R.add o (R.mul d s)) o) d ≤ R.mul (R.sub (R.add o (R.mul d t)) o) d
  rcases mul_sign (R := R) d with ⟨h1, h2⟩ | ⟨h1, h2⟩
  · exact h1 (R.sub_mono o (R.add_mono le_rfl (h2 h)))
  · exact h1 (R.sub_mono o (R.add_mono le_rfl (h2 h)))

variable (R) in
/-- The point at a parameter. -/
def pointF2 (o d : V2 F) (t : F) : V2 F := ⟨R.add o.x (R.mul d.x t), R.add o.y (R.mul d.y t)⟩
theorem rayTF2_mono (o d : V2 F) : Monotone fun t => rayTF2 R o d (pointF2 R o d t) := fun _ _ h => R.add_mono (term_mono _ _ h) (term_mono _ _ h)

/-- A summand is right up to rounding. -/
theorem term_err (h : Std R u η Ω) (hM : 1 ≤ M) (hΩ : 64 * M ≤ Ω) {o d t q : ℝ} (ro : Rep R o) (rd : Rep R d) (rq : Rep R q) (hd : |d| ≤ 2) (bt : |d * t| ≤ 51 / 16 * M)
    (bq : |q - (o + d * t)| ≤ rayErr u η M) :
    ∃ x, Rep R x ∧ termF R (numR R o) (numR R d) (numR R q) = numR R x ∧ (termN R (numR R o) (numR R d) (some (numR R q)) = some (numR R x)) ∧ |x - t * (d * d)| ≤ 39 * (u * M) + 10 * (M * η) + 13 * η ∧ |x| ≤ 12 * M := by
  have hu := h.u0
  have hη := h.η0
  have hη1 := h.η1
  have hM0 : (0 : ℝ) ≤ M := by linarith
  have q1 : u * M ≤ 1 / 16 * M := mul_le_mul_of_nonneg_right h.u1 hM0
  have q2 : M * η ≤ M * (1 / 16) := mul_le_mul_of_nonneg_left hη1 hM0
  have q3 : 0 ≤ u * M := mul_nonneg hu hM0
  have q4 : 0 ≤ M * η := mul_nonneg hM0 hη
  have hδ : rayErr u η M ≤ 19 / 16 * M := by unfold rayErr; linarith
  have b1 : |q - o| ≤ 70 / 16 * M := by
    rw [abs_le] at bt bq ⊢
    constructor <;> linarith
  obtain ⟨s, rs, es, bs⟩ := num_fl h (b1.trans (by linarith))
  have c1 : u * |q - o| ≤ u * (70 / 16 * M) := mul_le_mul_of_nonneg_left b1 hu
  have b2 : |s| ≤ 5 * M := by
    rw [abs_le] at b1 bs ⊢
    constructor <;> linarith
  have b3 : |s * d| ≤ 10 * M := by
    have := mul_abs_le b2 hd
    linarith
  obtain ⟨x, rx, ex, bx⟩ := num_fl h (b3.trans (by linarith))
  have c2 : u * |s * d| ≤ u * (10 * M) := mul_le_mul_of_nonneg_left b3 hu
  refine ⟨x, rx, ?_, ?_, ?_, ?_⟩
  · unfold termF
    rw [num_sub rq ro, es, num_mul rs rd, ex]
  · unfold termN
    rw [Option.bind_some, subN_some R (num_fin ro), num_sub rq ro, es, num_mulN rs rd, ex]
  · have e : x - t * (d * d) = (x - s * d) + d * ((s - (q - o)) + (q - (o + d * t))) := by ring
    have b4 : |(s - (q - o)) + (q - (o + d * t))| ≤ u * (70 / 16 * M) + η + rayErr u η M := by
      refine (abs_add_le _ _).trans ?_
      linarith
    have b5 := mul_abs_le hd b4
    rw [e]
    refine (abs_add_le _ _).trans ?_
    unfold rayErr at b5
    linarith
  · rw [abs_le] at b3 bx ⊢
    constructor <;> linarith

/-- The bound on the error of the rounded distance. -/
def distErr (u η M : ℝ) : ℝ := 200 * (u * M) + 30 * (M * η) + 50 * η

theorem along_size (h : Std R u η Ω) (hM : 1 ≤ M) {o d t lo hi : ℝ} (so : |o| ≤ M) (sl : |lo| ≤ M) (sh : |hi| ≤ M)
    (h1 : lo - rayErr u η M ≤ o + d * t) (h2 : o + d * t ≤ hi + rayErr u η M) : |d * t| ≤ 51 / 16 * M := by
  have hM0 : (0 : ℝ) ≤ M := by linarith
  have q1 : u * M ≤ 1 / 16 * M := mul_le_mul_of_nonneg_right h.u1 hM0
  have q2 : M * η ≤ M * (1 / 16) := mul_le_mul_of_nonneg_left h.η1 hM0
  have hη1 := h.η1
  have hδ : rayErr u η M ≤ 19 / 16 * M := by unfold rayErr; linarith
  rw [abs_le] at so sl sh ⊢
  constructor <;> linarith

/-! ## 2D -/

/-- A reported hit: the parameter `t` of the point, and the rounded distance `τ`. -/
structure HitT2 (R : Rounding F) (u η M : ℝ) (o d : V2 ℝ) (b : Aabb2 ℝ) (p : V2 F) (l k t τ : ℝ) : Prop where
  slabs : slabsF2 R (vecR2 R o) (vecR2 R d) (boxR2 R b) = some (numR R l, numR R k)
  rl : Rep R l
  rt : Rep R t
  nonneg : 0 ≤ t
  least : l ≤ t
  first : ¬ b.Mem o → t = max l 0
  deep : ∀ s, Around2 b (-rayErr u η M) (along2 o d s) → l ≤ s
  point : p = pointF2 R (vecR2 R o) (vecR2 R d) (numR R t)
  dist : rayTF2 R (vecR2 R o) (vecR2 R d) p = numR R τ
  rτ : Rep R τ
  err : |τ - t * (d.x * d.x + d.y * d.y)| ≤ distErr u η M
  near : Around2 b (rayErr u η M) (along2 o d t)
  close : ∃ q, p = vecR2 R q ∧ Close2 (rayErr u η M) q (along2 o d t)

theorem hit_form2 (h : Std R u η Ω) (hM : 1 ≤ M) (hD : 0 < D) (hu : 0 < u) (hΩ1 : 64 * M ≤ Ω) (hΩ2 : 4 * M / D ≤ Ω) {o d : V2 ℝ} {b : Aabb2 ℝ} (hf : FitsRay2 R M D o d b) {p : V2 F}
    (hp : intersectionF2 R (vecR2 R o) (vecR2 R d) (boxR2 R b) = some p) : ∃ l k t τ, HitT2 R u η M o d b p l k t τ := by
  have hΩ4 : 4 * M ≤ Ω := by linarith
  rcases slabs_cases2 h hM hD hu hΩ4 hΩ2 hf with ⟨e, hn⟩ | ⟨l, k, rl, rk, e, hnear, hdeep, hout⟩
  · unfold intersectionF2 at hp
    rw [e] at hp
    cases hp
  · have hp' := hp
    unfold intersectionF2 at hp
    rw [e, Option.bind_some] at hp
    dsimp only at hp
    rw [num_zero] at hp
    split at hp
    · cases hp
    · rename_i hc
      rw [numR_lt rl rep_zero, numR_lt rk rep_zero, numR_lt rk rl] at hc
      push Not at hc
      obtain ⟨hc1, hlk⟩ := hc
      have hp := (Option.some.inj hp).symm
      have fin : ∀ t, Rep R t → 0 ≤ t → l ≤ t → t ≤ k → (¬ b.Mem o → t = max l 0) → p = pointF2 R (vecR2 R o) (vecR2 R d) (numR R t) → ∃ l k t τ, HitT2 R u η M o d b p l k t τ := by
        intro t rt t0 a c hfst he
        have hN := hnear t a c
        obtain ⟨x, rx, ex, bx⟩ := along_err h hM hΩ4 hf.ro.1 hf.dx.1 rt hf.so.1 hf.box.1.2.1 hf.box.2.2.1 hN.1.1 hN.1.2
        obtain ⟨y, ry, ey, by'⟩ := along_err h hM hΩ4 hf.ro.2 hf.dy.1 rt hf.so.2 hf.box.1.2.2 hf.box.2.2.2 hN.2.1 hN.2.2
        obtain ⟨v, rv, ev, -, bv, sv⟩ := term_err h hM hΩ1 hf.ro.1 hf.dx.1 rx hf.dx.2.1 (along_size h hM hf.so.1 hf.box.1.2.1 hf.box.2.2.1 hN.1.1 hN.1.2) bx
        obtain ⟨w, rw', ew, -, bw, sw⟩ := term_err h hM hΩ1 hf.ro.2 hf.dy.1 ry hf.dy.2.1 (along_size h hM hf.so.2 hf.box.1.2.2 hf.box.2.2.2 hN.2.1 hN.2.2) by'
        have bs : |v + w| ≤ 24 * M := by
          refine (abs_add_le _ _).trans ?_
          linarith
        obtain ⟨τ, rτ, eτ, bτ⟩ := num_fl h (bs.trans (by linarith))
        have c1 : u * |v + w| ≤ u * (24 * M) := mul_le_mul_of_nonneg_left bs h.u0
        have q4 : 0 ≤ M * η := mul_nonneg (by linarith) h.η0
        have q3 : 0 ≤ u * M := mul_nonneg h.u0 (by linarith)
        have q5 := h.η0
        refine ⟨l, k, t, τ, e, rl, rt, t0, a, hfst, fun s hs => (hdeep s hs).1, he, ?_, rτ, ?_, hN, ⟨x, y⟩, ?_, bx, by'⟩
        · rw [he]
          unfold rayTF2 pointF2
          show R.add (termF R (numR R o.x) (numR R d.x) (R.add (numR R o.x) (R.mul (numR R d.x) (numR R t)))) (termF R (numR R o.y) (numR R d.y) (R.add (numR R o.y) (R.mul (numR R d.y) (numR R t)))) = _
          rw [ex, ey, ev, ew, num_add rv rw', eτ]
        · have q : τ - t * (d.x * d.x + d.y * d.y) = (τ - (v + w)) + ((v - t * (d.x * d.x)) + (w - t * (d.y * d.y))) := by ring
          rw [q]
          refine (abs_add_le _ _).trans ?_
          have := abs_add_le (v - t * (d.x * d.x)) (w - t * (d.y * d.y))
          unfold distErr
          linarith
        · rw [he]
          exact V2.ext ex ey
      by_cases hl : 0 ≤ l
      · rw [if_pos ((num_le rep_zero rl).2 hl)] at hp
        exact fin l rl hl le_rfl hlk (fun _ => (max_eq_left hl).symm) hp
      · rw [if_neg (fun q => hl ((num_le rep_zero rl).1 q))] at hp
        have hl' := not_le.1 hl
        refine fin k rk (hc1 hl') hlk le_rfl (fun hm => ?_) hp
        rw [max_eq_right hl'.le]
        rcases hout hm with q | q
        · exact absurd q hl
        · exact le_antisymm q (hc1 hl')

/-- Outside of an enclosing box, it is hit no later, for the rounded distance. -/
theorem hit_mono2 {o d : V2 ℝ} {big small : Aabb2 ℝ} (hv : (boxR2 R small).Valid) (hc : (boxR2 R big).contains (boxR2 R small) = true) {p q : V2 F} {l k t τ l' k' t' τ' : ℝ}
    (hs : HitT2 R u η M o d small p l k t τ) (hb : HitT2 R u η M o d big q l' k' t' τ') (ho : ¬ big.Mem o) : τ' ≤ τ := by
  obtain ⟨t1, e1, g, -⟩ := slabsF2_mono R _ _ hv hc hs.slabs
  rw [hb.slabs] at e1
  cases e1
  have hl : l' ≤ l := (num_le hb.rl hs.rl).1 g
  have ht : t' ≤ t := by
    rw [hb.first ho]
    exact max_le (hl.trans hs.least) hs.nonneg
  have hm := rayTF2_mono (R := R) (vecR2 R o) (vecR2 R d) ((num_le hb.rt hs.rt).2 ht)
  dsimp only at hm
  rw [← hb.point, ← hs.point, hb.dist, hs.dist] at hm
  exact (num_le hb.rτ hs.rτ).1 hm

/-! ## Trees of boxes with coordinates of at most `M` -/

/-- `Union`, `src/volume/aabb/aabb2.rs:127-129`: the least box around both. -/
def Box2M.union (a b : Box2M M) : Box2M M where
  box := a.box.union b.box
  rp := (a.rp.grow ⟨b.rp.1.1, b.rp.1.2⟩).grow ⟨b.rp.2.1, b.rp.2.2⟩
  valid := (c25_union_contains2 a.box b.box).1
/-- It is the union computed in `f64`. -/
theorem union_f64 (a b : Box2M M) : (a.union b).f64.1 = a.f64.1.union b.f64.1 := by
  show boxR binary64 ((a.box.grow b.box.min).grow b.box.max) = ((boxR binary64 a.box).grow (toV2 binary64 b.box.min)).grow (toV2 binary64 b.box.max)
  rw [boxR_grow, boxR_grow]
/-- A tree of such boxes: every test is made in `f64`. -/
def opsM2 {V S : Type} (bound fat : V → Box2M M) (area : Aabb2 F64 → S) (lt : S → S → Bool) (sub div : S → S → S) (im : S) : Ops V (Box2M M) S where
  bound := bound
  fat := fat
  union := Box2M.union
  contains a b := a.f64.1.contains b.f64.1
  area a := area a.f64.1
  lt := lt
  sub := sub
  div := div
  improvement := im
theorem opsM2_encloses {V S : Type} (bound fat : V → Box2M M) (area : Aabb2 F64 → S) (lt : S → S → Bool) (sub div : S → S → S) (im : S) :
    Encloses (opsM2 bound fat area lt sub div im) (fun a b => a.f64.1.contains b.f64.1 = true) where
  trans := c26_order2.2.1 _ _ _
  union_left a b := by
    show (a.union b).f64.1.contains _ = true
    rw [union_f64]; exact (c25_union_contains2 a.f64.1 b.f64.1).2.1
  union_right a b := by
    show (a.union b).f64.1.contains _ = true
    rw [union_f64]; exact (c25_union_contains2 a.f64.1 b.f64.1).2.2
  contains h := h
theorem contains_real2 {a b : Box2M M} (h : a.f64.1.contains b.f64.1 = true) : a.box.contains b.box = true := by
  obtain ⟨⟨x1, x2⟩, y1, y2⟩ := contains_iff2.1 h
  exact contains_iff2.2 ⟨⟨(num_le a.rp.1.1.1 b.rp.1.1.1).1 x1, (num_le b.rp.2.1.1 a.rp.2.1.1).1 x2⟩, (num_le a.rp.1.1.2 b.rp.1.1.2).1 y1, (num_le b.rp.2.1.2 a.rp.2.1.2).1 y2⟩

/-- `query_ray_closest` in `f64` (2D), `src/dbvt/util.rs:86-114` -/
def queryRayClosest64_2 {V S : Type} (O : Ops V (Box2M M) S) (s : Dbvt V (Box2M M)) (o d : V2 ℝ) : Res (Option (V × V2 F64)) :=
  queryRayClosest O s (fun b => intersectionF2 binary64 (vecR2 binary64 o) (vecR2 binary64 d) b.f64.1) (rayTF2 binary64 (vecR2 binary64 o) (vecR2 binary64 d)) (fun a b => decide (a < b)) binary64.inf

/-- The error of a comparison of two distances in `f64`. -/
def distErr64 (M : ℝ) : ℝ := 512 * ((2 : ℝ) ^ (-53 : ℤ) * M)
theorem distErr_le (hM : 1 ≤ M) : 2 * distErr ((2 : ℝ) ^ (-53 : ℤ)) ((2 : ℝ) ^ (-1075 : ℤ)) M ≤ distErr64 M := by
  have q1 : (2 : ℝ) ^ (-1075 : ℤ) ≤ (2 : ℝ) ^ (-57 : ℤ) := zpow_le_zpow_right₀ (by norm_num) (by norm_num)
  have q2 : (2 : ℝ) ^ (-53 : ℤ) = 16 * (2 : ℝ) ^ (-57 : ℤ) := by norm_num
  have q3 : (0 : ℝ) < (2 : ℝ) ^ (-57 : ℤ) := zpow_pos (by norm_num) _
  have q4 : M * (2 : ℝ) ^ (-1075 : ℤ) ≤ M * (2 : ℝ) ^ (-57 : ℤ) := mul_le_mul_of_nonneg_left q1 (by linarith)
  have q5 : (2 : ℝ) ^ (-57 : ℤ) * 1 ≤ (2 : ℝ) ^ (-57 : ℤ) * M := mul_le_mul_of_nonneg_left hM q3.le
  unfold distErr distErr64
  rw [q2]
  linarith
theorem ray64_omega64 (hM : 1 ≤ M) (hM' : M ≤ 2 ^ 249) : 64 * M ≤ (2 : ℝ) ^ (1022 : ℤ) := by
  have h1 : 64 * M ≤ 2 ^ 6 * 2 ^ 249 := by linarith
  rw [← pow_add] at h1
  refine h1.trans ?_
  rw [← zpow_natCast]
  exact zpow_le_zpow_right₀ (by norm_num) (by norm_num)

/-- **C111, 2D.** On every tree that is refitted and up to date, for every ray that starts in no branch volume: if nothing is returned, no ray passes through a stored box shrunk by the rounding error; a
returned value is stored, its point is, up to rounding, where the ray enters its box, at a parameter `t`, and no stored box that does not hold the origin is passed, shrunk by the rounding error, earlier by
more than the error of the distances. -/
theorem c111_closest2_partial {V S : Type} (hM : 1 ≤ M) (hM' : M ≤ 2 ^ 249) (bound fat : V → Box2M M) (area : Aabb2 F64 → S) (lt : S → S → Bool) (sub div : S → S → S) (im : S)
    (hfat : ∀ v, (fat v).f64.1.contains (bound v).f64.1 = true) {h : Hist V} {s : Dbvt V (Box2M M)} (he : Exec (opsM2 bound fat area lt sub div im) h s) (hd : Disciplined (opsM2 bound fat area lt sub div im) h)
    (hu : UpToDate (opsM2 bound fat area lt sub div im) h) (hr : Refitted! h) {n : Nat} (hh : s.height = .ok n) (hn : n ≤ 256) {o d : V2 ℝ} (hray : Ray2M M o d)
    (hout : ∀ (i : Nat) (b : Branch (Box2M M)), s.nodes[i]? = some (Node.branch b) → ¬ b.bound.box.Mem o) :
    ∃ res, queryRayClosest64_2 (opsM2 bound fat area lt sub div im) s o d = .ok res ∧
      (res = none → ∀ v ∈ s.values.map Prod.snd, ¬ ∃ t, 0 ≤ t ∧ Around2 (bound v).box (-rayErr64 M) (along2 o d t)) ∧
      ∀ v p, res = some (v, p) → v ∈ s.values.map Prod.snd ∧ ∃ q t, p = vecR2 binary64 q ∧ 0 ≤ t ∧ Close2 (rayErr64 M) q (along2 o d t) ∧ Around2 (bound v).box (rayErr64 M) (along2 o d t) ∧
        ∀ w ∈ s.values.map Prod.snd, ¬ (bound w).box.Mem o → ∀ r, 0 ≤ r → Around2 (bound w).box (-rayErr64 M) (along2 o d r) →
          t * (d.x * d.x + d.y * d.y) ≤ r * (d.x * d.x + d.y * d.y) + distErr64 M := by
  have hE := rayErr_le hM
  have fits : ∀ b : Box2M M, FitsRay2 binary64 M dirMin o d b.box := fun b => ⟨hray.ro, hray.so, hray.dx, hray.dy, hray.ne, b.rp, b.valid⟩
  have hit : ∀ (b : Box2M M) (p : V2 F64), intersectionF2 binary64 (vecR2 binary64 o) (vecR2 binary64 d) b.f64.1 = some p →
      ∃ l k t τ, HitT2 binary64 ((2 : ℝ) ^ (-53 : ℤ)) ((2 : ℝ) ^ (-1075 : ℤ)) M o d b.box p l k t τ := fun b p hp =>
    hit_form2 std64 hM dirMin_pos (zpow_pos (by norm_num) _) (ray64_omega64 hM hM') (ray64_omega2 hM') (fits b) hp
  have ord : OrdOn (fun a b : F64 => decide (a < b)) (fun _ => True) :=
    ⟨fun _ _ h => decide_eq_false (not_lt.2 (of_decide_eq_true h).le), fun _ _ _ h1 h2 => decide_eq_false (not_lt.2 ((not_lt.1 (of_decide_eq_false h2)).trans (not_lt.1 (of_decide_eq_false h1))))⟩
  obtain ⟨res, h1, h2, h3⟩ := closest_generic (opsM2 bound fat area lt sub div im) s (fun b : Box2M M => intersectionF2 binary64 (vecR2 binary64 o) (vecR2 binary64 d) b.f64.1)
    (rayTF2 binary64 (vecR2 binary64 o) (vecR2 binary64 d)) (fun a b => decide (a < b)) ord (fun _ _ _ => trivial) (opsM2_encloses bound fat area lt sub div im) hfat he hd hu hr hh hn binary64.inf trivial
    (by
      intro v p hp
      obtain ⟨l, k, t, τ, ht⟩ := hit _ p hp
      rw [ht.dist]
      exact decide_eq_true (lt_of_le_of_ne (binary64.le_inf _) (num_fin ht.rτ).1))
    (by
      intro i b hb v hen p hp
      have hs := (c99_mono_ray2 binary64 (vecR2 binary64 o) (vecR2 binary64 d) (bound v).f64.2 hen).2 (by
        have : intersectionF2 binary64 (vecR2 binary64 o) (vecR2 binary64 d) (bound v).f64.1 = some p := hp
        rw [this]; rfl)
      obtain ⟨q, hq⟩ := Option.isSome_iff_exists.1 hs
      obtain ⟨l, k, t, τ, ht⟩ := hit _ p hp
      obtain ⟨l', k', t', τ', ht'⟩ := hit _ q hq
      refine ⟨q, hq, decide_eq_false ?_⟩
      rw [ht.dist, ht'.dist, numR_lt ht.rτ ht'.rτ, not_lt]
      exact hit_mono2 (bound v).f64.2 hen ht ht' (hout i b hb))
  have shr : ∀ v, (∃ t, 0 ≤ t ∧ Around2 (bound v).box (-rayErr64 M) (along2 o d t)) → ∃ p, intersectionF2 binary64 (vecR2 binary64 o) (vecR2 binary64 d) (bound v).f64.1 = some p := by
    intro v ht
    have k := c110_f64_2 hM hM' (fits (bound v))
    have := k.2.1 ht
    rw [k.2.2.1] at this
    exact Option.isSome_iff_exists.1 this
  refine ⟨res, h1, ?_, ?_⟩
  · intro hnone v hv ht
    obtain ⟨e, hm, rfl⟩ := List.mem_map.1 hv
    obtain ⟨p, hp⟩ := shr _ ht
    have := h2.1 hnone e hm
    have : (some p : Option (V2 F64)) = none := hp.symm.trans this
    cases this
  · intro v p hvp
    obtain ⟨hv, hp, hmin⟩ := h3 v p hvp
    have hp : intersectionF2 binary64 (vecR2 binary64 o) (vecR2 binary64 d) (bound v).f64.1 = some p := hp
    obtain ⟨l, k, t, τ, ht⟩ := hit _ p hp
    refine ⟨hv, ?_⟩
    obtain ⟨q, eq, hq⟩ := ht.close
    refine ⟨q, t, eq, ht.nonneg, ⟨hq.1.trans hE, hq.2.trans hE⟩, ht.near.mono hE, ?_⟩
    intro w hw ho r hr0 hrw
    obtain ⟨e, hm, rfl⟩ := List.mem_map.1 hw
    obtain ⟨p', hp'⟩ := shr _ ⟨r, hr0, hrw⟩
    obtain ⟨l', k', t', τ', ht'⟩ := hit _ p' hp'
    have hcmp := of_decide_eq_false (hmin e hm p' hp')
    rw [ht.dist, ht'.dist, numR_lt ht'.rτ ht.rτ, not_lt] at hcmp
    have htr : t' ≤ r := by
      rw [ht'.first ho]
      exact max_le (ht'.deep r (hrw.mono (neg_le_neg hE))) hr0
    have hdd : 0 ≤ d.x * d.x + d.y * d.y := add_nonneg (mul_self_nonneg _) (mul_self_nonneg _)
    have h4 := mul_le_mul_of_nonneg_right htr hdd
    have h5 := distErr_le hM
    have h6 := (abs_le.1 ht.err).1
    have h7 := (abs_le.1 ht'.err).2
    linarith

/-! ## 3D -/

variable (R) in
/-- The rounded distance without NaN. -/
def rayTF3 (o d p : V3 F) : F := R.add (R.add (termF R o.x d.x p.x) (termF R o.y d.y p.y)) (termF R o.z d.z p.z)
variable (R) in
def pointF3 (o d : V3 F) (t : F) : V3 F := ⟨R.add o.x (R.mul d.x t), R.add o.y (R.mul d.y t), R.add o.z (R.mul d.z t)⟩
theorem rayTF3_mono (o d : V3 F) : Monotone fun t => rayTF3 R o d (pointF3 R o d t) := fun _ _ h => R.add_mono (R.add_mono (term_mono _ _ h) (term_mono _ _ h)) (term_mono _ _ h)

/-- A reported hit in 3D: the parameter `t` of the point, and the rounded distance `τ`. -/
structure HitT3 (R : Rounding F) (u η M : ℝ) (nz : V3 Bool) (o d : V3 ℝ) (b : Aabb3 ℝ) (p : V3 (WithNan F)) (l k t τ : ℝ) : Prop where
  slabs : slabsN3 R nz (vecR R o) (vecR R d) (boxR3 R b) = (some (numR R l), some (numR R k))
  rl : Rep R l
  rt : Rep R t
  nonneg : 0 ≤ t
  least : l ≤ t
  first : ¬ b.Mem o → t = max l 0
  deep : ∀ s, Around3 b (-rayErr u η M) (along3 o d s) → l ≤ s
  dist : rayTN3 R (vecR R o) (vecR R d) p = some (numR R τ)
  dist' : rayTF3 R (vecR R o) (vecR R d) (pointF3 R (vecR R o) (vecR R d) (numR R t)) = numR R τ
  rτ : Rep R τ
  err : |τ - t * (d.x * d.x + d.y * d.y + d.z * d.z)| ≤ distErr u η M
  near : Around3 b (rayErr u η M) (along3 o d t)
  close : ∃ q, p = someV (vecR R q) ∧ Close3 (rayErr u η M) q (along3 o d t)

theorem along_both (h : Std R u η Ω) (hM : 1 ≤ M) (hΩ : 4 * M ≤ Ω) {o d t lo hi : ℝ} (ro : Rep R o) (rd : Rep R d) (rt : Rep R t) (so : |o| ≤ M) (sl : |lo| ≤ M) (sh : |hi| ≤ M)
    (h1 : lo - rayErr u η M ≤ o + d * t) (h2 : o + d * t ≤ hi + rayErr u η M) :
    ∃ q, Rep R q ∧ R.addN (some (numR R o)) (R.mulN (some (numR R d)) (some (numR R t))) = some (numR R q) ∧ R.add (numR R o) (R.mul (numR R d) (numR R t)) = numR R q ∧
      |q - (o + d * t)| ≤ rayErr u η M := by
  obtain ⟨q, rq, e, bq⟩ := along_err h hM hΩ ro rd rt so sl sh h1 h2
  refine ⟨q, rq, ?_, e, bq⟩
  obtain ⟨x, rx, ex, -⟩ := num_fl h ((along_size h hM so sl sh h1 h2).trans (by linarith))
  rw [num_mul rd rt, ex, num_add ro rx] at e
  rw [num_mulN rd rt, ex, num_addN ro rx, e]

theorem hit_form3 (h : Std R u η Ω) (hM : 1 ≤ M) (hD : 0 < D) (hD1 : D ≤ 1) (hu : 0 < u) (hΩ1 : 64 * M ≤ Ω) (hΩ2 : 4 * M / D ≤ Ω) (nz : V3 Bool) {o d : V3 ℝ} {b : Aabb3 ℝ} (hf : FitsRay3 R M D o d b)
    {p : V3 (WithNan F)} (hp : intersectionN3 R nz (vecR R o) (vecR R d) (boxR3 R b) = some p) : ∃ l k t τ, HitT3 R u η M nz o d b p l k t τ := by
  have hΩ4 : 4 * M ≤ Ω := by linarith
  rcases slabs_cases3 h hM hD hD1 hu hΩ2 nz hf with ⟨a, c, e, hlt, hn⟩ | ⟨l, k, rl, rk, hlk, e, hnear, hdeep, hout⟩
  · rw [intersectionN3_miss e (Or.inr hlt)] at hp
    cases hp
  · have w' : ((numR R l < R.zero ∧ numR R k < R.zero) ∨ numR R k < numR R l) ↔ ¬ 0 ≤ k := by
      rw [num_zero, numR_lt rl rep_zero, numR_lt rk rep_zero, numR_lt rk rl, not_le]
      exact ⟨fun q => q.elim And.right fun q => absurd hlk (not_le.2 q), fun q => Or.inl ⟨hlk.trans_lt q, q⟩⟩
    have hk : 0 ≤ k := by
      by_contra hc
      rw [intersectionN3_miss e (w'.2 hc)] at hp
      cases hp
    have fin : ∀ t, Rep R t → 0 ≤ t → l ≤ t → t ≤ k → (¬ b.Mem o → t = max l 0) →
        p = ⟨R.addN (some (vecR R o).x) (R.mulN (some (vecR R d).x) (some (numR R t))), R.addN (some (vecR R o).y) (R.mulN (some (vecR R d).y) (some (numR R t))),
              R.addN (some (vecR R o).z) (R.mulN (some (vecR R d).z) (some (numR R t)))⟩ → ∃ l k t τ, HitT3 R u η M nz o d b p l k t τ := by
      intro t rt t0 a c hfst he
      have hN := hnear t a c
      obtain ⟨-, ⟨-, s1, s2, s3⟩, -, t1, t2, t3⟩ := hf.box
      obtain ⟨x, rx, ex, ex', bx⟩ := along_both h hM hΩ4 hf.ro.1 hf.dx.1 rt hf.so.1 s1 t1 hN.1.1 hN.1.2
      obtain ⟨y, ry, ey, ey', by'⟩ := along_both h hM hΩ4 hf.ro.2.1 hf.dy.1 rt hf.so.2.1 s2 t2 hN.2.1.1 hN.2.1.2
      obtain ⟨z, rz, ez, ez', bz⟩ := along_both h hM hΩ4 hf.ro.2.2 hf.dz.1 rt hf.so.2.2 s3 t3 hN.2.2.1 hN.2.2.2
      obtain ⟨v, rv, ev, fv, bv, sv⟩ := term_err h hM hΩ1 hf.ro.1 hf.dx.1 rx hf.dx.2.1 (along_size h hM hf.so.1 s1 t1 hN.1.1 hN.1.2) bx
      obtain ⟨w, rw', ew, fw, bw, sw⟩ := term_err h hM hΩ1 hf.ro.2.1 hf.dy.1 ry hf.dy.2.1 (along_size h hM hf.so.2.1 s2 t2 hN.2.1.1 hN.2.1.2) by'
      obtain ⟨g, rg, eg, fg, bg, sg⟩ := term_err h hM hΩ1 hf.ro.2.2 hf.dz.1 rz hf.dz.2.1 (along_size h hM hf.so.2.2 s3 t3 hN.2.2.1 hN.2.2.2) bz
      have hM0 : (0 : ℝ) ≤ M := by linarith
      have q0 : u * M ≤ 1 / 16 * M := mul_le_mul_of_nonneg_right h.u1 hM0
      have q4 : 0 ≤ M * η := mul_nonneg hM0 h.η0
      have q3 : 0 ≤ u * M := mul_nonneg h.u0 hM0
      have q5 := h.η0
      have q6 := h.η1
      have bs : |v + w| ≤ 24 * M := by
        refine (abs_add_le _ _).trans ?_
        linarith
      obtain ⟨σ, rσ, eσ, bσ⟩ := num_fl h (bs.trans (by linarith))
      have c1 : u * |v + w| ≤ u * (24 * M) := mul_le_mul_of_nonneg_left bs h.u0
      have sσ : |σ| ≤ 26 * M := by
        rw [abs_le] at bs bσ ⊢
        constructor <;> linarith
      have bs' : |σ + g| ≤ 38 * M := by
        refine (abs_add_le _ _).trans ?_
        linarith
      obtain ⟨τ, rτ, eτ, bτ⟩ := num_fl h (bs'.trans (by linarith))
      have c2 : u * |σ + g| ≤ u * (38 * M) := mul_le_mul_of_nonneg_left bs' h.u0
      refine ⟨l, k, t, τ, e, rl, rt, t0, a, hfst, fun s hs => (hdeep s hs).1, ?_, ?_, rτ, ?_, hN, ⟨x, y, z⟩, ?_, bx, by', bz⟩
      · rw [he]
        unfold rayTN3
        show R.addN (R.addN (termN R (numR R o.x) (numR R d.x) (R.addN (some (numR R o.x)) (R.mulN (some (numR R d.x)) (some (numR R t)))))
          (termN R (numR R o.y) (numR R d.y) (R.addN (some (numR R o.y)) (R.mulN (some (numR R d.y)) (some (numR R t))))))
          (termN R (numR R o.z) (numR R d.z) (R.addN (some (numR R o.z)) (R.mulN (some (numR R d.z)) (some (numR R t))))) = _
        rw [ex, ey, ez, fv, fw, fg, num_addN rv rw', eσ, num_addN rσ rg, eτ]
      · unfold rayTF3 pointF3
        show R.add (R.add (termF R (numR R o.x) (numR R d.x) (R.add (numR R o.x) (R.mul (numR R d.x) (numR R t)))) (termF R (numR R o.y) (numR R d.y) (R.add (numR R o.y) (R.mul (numR R d.y) (numR R t)))))
          (termF R (numR R o.z) (numR R d.z) (R.add (numR R o.z) (R.mul (numR R d.z) (numR R t)))) = _
        rw [ex', ey', ez', ev, ew, eg, num_add rv rw', eσ, num_add rσ rg, eτ]
      · have q : τ - t * (d.x * d.x + d.y * d.y + d.z * d.z) = ((τ - (σ + g)) + (σ - (v + w))) + (((v - t * (d.x * d.x)) + (w - t * (d.y * d.y))) + (g - t * (d.z * d.z))) := by ring
        rw [q]
        refine (abs_add_le _ _).trans ?_
        have i1 := abs_add_le (τ - (σ + g)) (σ - (v + w))
        have i2 := abs_add_le ((v - t * (d.x * d.x)) + (w - t * (d.y * d.y))) (g - t * (d.z * d.z))
        have i3 := abs_add_le (v - t * (d.x * d.x)) (w - t * (d.y * d.y))
        unfold distErr
        linarith
      · rw [he]
        exact V3.ext ex ey ez
    have ht : (R.zero ≤ numR R l ∧ numR R (if 0 ≤ l then l else k) = numR R l) ∨ (numR R l < R.zero ∧ numR R (if 0 ≤ l then l else k) = numR R k) := by
      rw [num_zero, num_le rep_zero rl, numR_lt rl rep_zero]
      by_cases hl : 0 ≤ l
      · exact Or.inl ⟨hl, by rw [if_pos hl]⟩
      · exact Or.inr ⟨not_le.1 hl, by rw [if_neg hl]⟩
    rw [intersectionN3_hit e (fun q => w'.1 q hk) ht] at hp
    have hp := (Option.some.inj hp).symm
    by_cases hl : 0 ≤ l
    · rw [if_pos hl] at hp
      exact fin l rl hl le_rfl hlk (fun _ => (max_eq_left hl).symm) hp
    · rw [if_neg hl] at hp
      have hl' := not_le.1 hl
      refine fin k rk hk hlk le_rfl (fun hm => ?_) hp
      rw [max_eq_right hl'.le]
      rcases hout hm with q | q
      · exact absurd q hl
      · exact le_antisymm q hk

/-- Outside of an enclosing box, it is hit no later, for the rounded distance. -/
theorem hit_mono3 {nz : V3 Bool} {o d : V3 ℝ} {big small : Aabb3 ℝ} (hr : RayOk R nz (vecR R o) (vecR R d)) (hv : (boxR3 R small).Valid) (hth : Thick R (vecR R o) (boxR3 R small))
    (hc : (boxR3 R big).contains (boxR3 R small) = true) {p q : V3 (WithNan F)} {l k t τ l' k' t' τ' : ℝ}
    (hs : HitT3 R u η M nz o d small p l k t τ) (hb : HitT3 R u η M nz o d big q l' k' t' τ') (ho : ¬ big.Mem o) : τ' ≤ τ := by
  obtain ⟨a, b, a', b', e1, e2, g, -⟩ := slabsN3_mono R hr hv hth hc
  rw [hb.slabs] at e2
  rw [hs.slabs] at e1
  cases e1
  cases e2
  have hl : l' ≤ l := (num_le hb.rl hs.rl).1 g
  have ht : t' ≤ t := by
    rw [hb.first ho]
    exact max_le (hl.trans hs.least) hs.nonneg
  have hm := rayTF3_mono (R := R) (vecR R o) (vecR R d) ((num_le hb.rt hs.rt).2 ht)
  dsimp only at hm
  rw [hb.dist', hs.dist'] at hm
  exact (num_le hb.rτ hs.rτ).1 hm

theorem grow_fits {a : Aabb3 ℝ} (ha : FitsB binary64 M a) {p : V3 ℝ} (hr : Rep3 binary64 p) (hs : Sz3 M p) : FitsB binary64 M (a.grow p) := by
  obtain ⟨h1, ⟨⟨a1, a2, a3⟩, b1, b2, b3⟩, ⟨c1, c2, c3⟩, d1, d2, d3⟩ := ha
  have mn : ∀ {x y : ℝ}, Rep binary64 x → Rep binary64 y → Rep binary64 (min x y) := fun {x y} h k => by
    rcases min_choice x y with e | e <;> rw [e] <;> assumption
  have mx : ∀ {x y : ℝ}, Rep binary64 x → Rep binary64 y → Rep binary64 (max x y) := fun {x y} h k => by
    rcases max_choice x y with e | e <;> rw [e] <;> assumption
  have mn' : ∀ {x y : ℝ}, |x| ≤ M → |y| ≤ M → |min x y| ≤ M := fun {x y} h k => by
    rcases min_choice x y with e | e <;> rw [e] <;> assumption
  have mx' : ∀ {x y : ℝ}, |x| ≤ M → |y| ≤ M → |max x y| ≤ M := fun {x y} h k => by
    rcases max_choice x y with e | e <;> rw [e] <;> assumption
  have hv := (c25_grow3 a p).1
  rw [grow3_eq] at hv ⊢
  exact ⟨hv, ⟨⟨mn a1 hr.1, mn a2 hr.2.1, mn a3 hr.2.2⟩, mn' b1 hs.1, mn' b2 hs.2.1, mn' b3 hs.2.2⟩, ⟨mx c1 hr.1, mx c2 hr.2.1, mx c3 hr.2.2⟩, mx' d1 hs.1, mx' d2 hs.2.1, mx' d3 hs.2.2⟩
/-- `Union`, `src/volume/aabb/aabb3.rs:159-161`: the least box around both. -/
def Box3M.union (a b : Box3M M) : Box3M M where
  box := a.box.union b.box
  fits := grow_fits (grow_fits a.fits b.fits.2.1.1 b.fits.2.1.2) b.fits.2.2.1 b.fits.2.2.2
  solid := by
    have h := (c25_union_contains3 a.box b.box).2.1
    obtain ⟨⟨x1, x2⟩, ⟨y1, y2⟩, z1, z2⟩ := contains_iff3.1 h
    exact ⟨(x1.trans_lt a.solid.1).trans_le x2, (y1.trans_lt a.solid.2.1).trans_le y2, (z1.trans_lt a.solid.2.2).trans_le z2⟩
theorem boxR3_grow (b : Aabb3 ℝ) (p : V3 ℝ) : boxR3 R (b.grow p) = (boxR3 R b).grow (vecR R p) := by
  have m : Monotone (numR R) := fun _ _ h => R.rnd_mono (EReal.coe_le_coe_iff.2 h)
  rw [grow3_eq, grow3_eq]
  show (⟨⟨_, _, _⟩, ⟨_, _, _⟩⟩ : Aabb3 F) = ⟨⟨_, _, _⟩, ⟨_, _, _⟩⟩
  congr 2 <;> first | exact m.map_min | exact m.map_max
/-- It is the union computed in `f64`. -/
theorem union_f64_3 (a b : Box3M M) : (a.union b).f64.1 = a.f64.1.union b.f64.1 := by
  show boxR3 binary64 ((a.box.grow b.box.min).grow b.box.max) = ((boxR3 binary64 a.box).grow (vecR binary64 b.box.min)).grow (vecR binary64 b.box.max)
  rw [boxR3_grow, boxR3_grow]
/-- A tree of such boxes: every test is made in `f64`. -/
def opsM3 {V S : Type} (bound fat : V → Box3M M) (area : Aabb3 F64 → S) (lt : S → S → Bool) (sub div : S → S → S) (im : S) : Ops V (Box3M M) S where
  bound := bound
  fat := fat
  union := Box3M.union
  contains a b := a.f64.1.contains b.f64.1
  area a := area a.f64.1
  lt := lt
  sub := sub
  div := div
  improvement := im
theorem opsM3_encloses {V S : Type} (bound fat : V → Box3M M) (area : Aabb3 F64 → S) (lt : S → S → Bool) (sub div : S → S → S) (im : S) :
    Encloses (opsM3 bound fat area lt sub div im) (fun a b => a.f64.1.contains b.f64.1 = true) where
  trans := c26_order3.2.1 _ _ _
  union_left a b := by
    show (a.union b).f64.1.contains _ = true
    rw [union_f64_3]; exact (c25_union_contains3 a.f64.1 b.f64.1).2.1
  union_right a b := by
    show (a.union b).f64.1.contains _ = true
    rw [union_f64_3]; exact (c25_union_contains3 a.f64.1 b.f64.1).2.2
  contains h := h

/-- `query_ray_closest` in `f64` (3D), with infinities and NaN, `src/dbvt/util.rs:86-114` -/
def queryRayClosest64_3 {V S : Type} (O : Ops V (Box3M M) S) (s : Dbvt V (Box3M M)) (nz : V3 Bool) (o d : V3 ℝ) : Res (Option (V × V3 (WithNan F64))) :=
  queryRayClosest O s (fun b => intersectionN3 binary64 nz (vecR binary64 o) (vecR binary64 d) b.f64.1) (rayTN3 binary64 (vecR binary64 o) (vecR binary64 d)) nlt (some binary64.inf)

theorem nlt_ordOn : OrdOn (nlt (F := F)) (· ≠ none) where
  asymm := by
    intro a b ha hb h
    cases a with
    | none => exact absurd rfl ha
    | some a =>
      cases b with
      | none => exact absurd rfl hb
      | some b => exact decide_eq_false (not_lt.2 (of_decide_eq_true h).le)
  trans := by
    intro a b c ha hb hc h1 h2
    cases a with
    | none => exact absurd rfl ha
    | some a =>
      cases b with
      | none => exact absurd rfl hb
      | some b =>
        cases c with
        | none => exact absurd rfl hc
        | some c => exact decide_eq_false (not_lt.2 ((not_lt.1 (of_decide_eq_false h2)).trans (not_lt.1 (of_decide_eq_false h1))))

set_option maxHeartbeats 1000000 in
/-- **C111, 3D**, as in 2D; the boxes are not flat, and the direction may have components zero (of either sign, `nz`). -/
theorem c111_closest3_partial {V S : Type} (hM : 1 ≤ M) (hM' : M ≤ 2 ^ 249) (bound fat : V → Box3M M) (area : Aabb3 F64 → S) (lt : S → S → Bool) (sub div : S → S → S) (im : S)
    (hfat : ∀ v, (fat v).f64.1.contains (bound v).f64.1 = true) {h : Hist V} {s : Dbvt V (Box3M M)} (he : Exec (opsM3 bound fat area lt sub div im) h s) (hd : Disciplined (opsM3 bound fat area lt sub div im) h)
    (hu : UpToDate (opsM3 bound fat area lt sub div im) h) (hr : Refitted! h) {n : Nat} (hh : s.height = .ok n) (hn : n ≤ 256) (nz : V3 Bool) {o d : V3 ℝ} (hray : Ray3M M o d)
    (hout : ∀ (i : Nat) (b : Branch (Box3M M)), s.nodes[i]? = some (Node.branch b) → ¬ b.bound.box.Mem o) :
    ∃ res, queryRayClosest64_3 (opsM3 bound fat area lt sub div im) s nz o d = .ok res ∧
      (res = none → ∀ v ∈ s.values.map Prod.snd, ¬ ∃ t, 0 ≤ t ∧ Around3 (bound v).box (-rayErr64 M) (along3 o d t)) ∧
      ∀ v p, res = some (v, p) → v ∈ s.values.map Prod.snd ∧ ∃ q t, p = someV (vecR binary64 q) ∧ 0 ≤ t ∧ Close3 (rayErr64 M) q (along3 o d t) ∧ Around3 (bound v).box (rayErr64 M) (along3 o d t) ∧
        ∀ w ∈ s.values.map Prod.snd, ¬ (bound w).box.Mem o → ∀ r, 0 ≤ r → Around3 (bound w).box (-rayErr64 M) (along3 o d r) →
          t * (d.x * d.x + d.y * d.y + d.z * d.z) ≤ r * (d.x * d.x + d.y * d.y + d.z * d.z) + distErr64 M := by
  have hE := rayErr_le hM
  have ho64 : Fin64 (vecR binary64 o).x ∧ Fin64 (vecR binary64 o).y ∧ Fin64 (vecR binary64 o).z := ⟨num_fin hray.ro.1, num_fin hray.ro.2.1, num_fin hray.ro.2.2⟩
  have hok := rayOk64 nz (vecR binary64 o) (vecR binary64 d) ho64 ⟨num_fin hray.dx.1, num_fin hray.dy.1, num_fin hray.dz.1⟩
  have fits : ∀ b : Box3M M, FitsRay3 binary64 M dirMin o d b.box := fun b => ⟨hray.ro, hray.so, hray.dx, hray.dy, hray.dz, hray.ne, b.fits, b.solid⟩
  have hit : ∀ (b : Box3M M) (p : V3 (WithNan F64)), intersectionN3 binary64 nz (vecR binary64 o) (vecR binary64 d) b.f64.1 = some p →
      ∃ l k t τ, HitT3 binary64 ((2 : ℝ) ^ (-53 : ℤ)) ((2 : ℝ) ^ (-1075 : ℤ)) M nz o d b.box p l k t τ := fun b p hp =>
    hit_form3 std64 hM dirMin_pos dirMin_le (zpow_pos (by norm_num) _) (ray64_omega64 hM hM') (ray64_omega2 hM') nz (fits b) hp
  have ord := nlt_ordOn (F := F64)
  obtain ⟨res, h1, h2, h3⟩ := closest_generic (opsM3 bound fat area lt sub div im) s (fun b : Box3M M => intersectionN3 binary64 nz (vecR binary64 o) (vecR binary64 d) b.f64.1)
    (rayTN3 binary64 (vecR binary64 o) (vecR binary64 d)) nlt ord
    (by
      intro b p hp
      obtain ⟨l, k, t, τ, ht⟩ := hit _ p hp
      rw [ht.dist]
      simp) (opsM3_encloses bound fat area lt sub div im) hfat he hd hu hr hh hn (some binary64.inf) (by simp)
    (by
      intro v p hp
      obtain ⟨l, k, t, τ, ht⟩ := hit _ p hp
      rw [ht.dist]
      exact decide_eq_true (lt_of_le_of_ne (binary64.le_inf _) (num_fin ht.rτ).1))
    (by
      intro i b hb v hen p hp
      have hs := (c99_mono_nan3 binary64 hok (solid_valid (bound v).f64.2) (thick64 _ ho64 (bound v).f64.2) hen).2 (by
        have : intersectionN3 binary64 nz (vecR binary64 o) (vecR binary64 d) (bound v).f64.1 = some p := hp
        rw [this]; rfl)
      obtain ⟨q, hq⟩ := Option.isSome_iff_exists.1 hs
      obtain ⟨l, k, t, τ, ht⟩ := hit _ p hp
      obtain ⟨l', k', t', τ', ht'⟩ := hit _ q hq
      refine ⟨q, hq, ?_⟩
      rw [ht.dist, ht'.dist]
      refine decide_eq_false ?_
      rw [numR_lt ht.rτ ht'.rτ, not_lt]
      exact hit_mono3 hok (solid_valid (bound v).f64.2) (thick64 _ ho64 (bound v).f64.2) hen ht ht' (hout i b hb))
  have shr : ∀ v, (∃ t, 0 ≤ t ∧ Around3 (bound v).box (-rayErr64 M) (along3 o d t)) → ∃ p, intersectionN3 binary64 nz (vecR binary64 o) (vecR binary64 d) (bound v).f64.1 = some p := by
    intro v ht
    have k := c110_f64_3 hM hM' nz (fits (bound v))
    have := k.2.1 ht
    rw [k.2.2.1] at this
    exact Option.isSome_iff_exists.1 this
  refine ⟨res, h1, ?_, ?_⟩
  · intro hnone v hv ht
    obtain ⟨e, hm, rfl⟩ := List.mem_map.1 hv
    obtain ⟨p, hp⟩ := shr _ ht
    have := h2.1 hnone e hm
    have : (some p : Option (V3 (WithNan F64))) = none := hp.symm.trans this
    cases this
  · intro v p hvp
    obtain ⟨hv, hp, hmin⟩ := h3 v p hvp
    have hp : intersectionN3 binary64 nz (vecR binary64 o) (vecR binary64 d) (bound v).f64.1 = some p := hp
    obtain ⟨l, k, t, τ, ht⟩ := hit _ p hp
    refine ⟨hv, ?_⟩
    obtain ⟨q, eq, hq⟩ := ht.close
    refine ⟨q, t, eq, ht.nonneg, ⟨hq.1.trans hE, hq.2.1.trans hE, hq.2.2.trans hE⟩, ht.near.mono hE, ?_⟩
    intro w hw ho r hr0 hrw
    obtain ⟨e, hm, rfl⟩ := List.mem_map.1 hw
    obtain ⟨p', hp'⟩ := shr _ ⟨r, hr0, hrw⟩
    obtain ⟨l', k', t', τ', ht'⟩ := hit _ p' hp'
    have hcmp := hmin e hm p' hp'
    rw [ht.dist, ht'.dist] at hcmp
    have hcmp := of_decide_eq_false hcmp
    rw [numR_lt ht'.rτ ht.rτ, not_lt] at hcmp
    have htr : t' ≤ r := by
      rw [ht'.first ho]
      exact max_le (ht'.deep r (hrw.mono (neg_le_neg hE))) hr0
    have hdd : 0 ≤ d.x * d.x + d.y * d.y + d.z * d.z := add_nonneg (add_nonneg (mul_self_nonneg _) (mul_self_nonneg _)) (mul_self_nonneg _)
    have h4 := mul_le_mul_of_nonneg_right htr hdd
    have h5 := distErr_le hM
    have h6 := (abs_le.1 ht.err).1
    have h7 := (abs_le.1 ht'.err).2
    linarith

/-! ## Rays that start outside the scene -/

/-- **C111 from outside the scene** (2D): for every ray that starts outside of a box `W` around all fat volumes that were given to the tree, the value returned is, up to rounding, the first one hit. -/
theorem c111_outside2_partial {V S : Type} (hM : 1 ≤ M) (hM' : M ≤ 2 ^ 249) (bound fat : V → Box2M M) (area : Aabb2 F64 → S) (lt : S → S → Bool) (sub div : S → S → S) (im : S)
    (hfat : ∀ v, (fat v).f64.1.contains (bound v).f64.1 = true) {h : Hist V} {s : Dbvt V (Box2M M)} (he : Exec (opsM2 bound fat area lt sub div im) h s) (hd : Disciplined (opsM2 bound fat area lt sub div im) h)
    (hu : UpToDate (opsM2 bound fat area lt sub div im) h) (hr : Refitted! h) {n : Nat} (hh : s.height = .ok n) (hn : n ≤ 256) {o d : V2 ℝ} (hray : Ray2M M o d)
    (W : Aabb2 ℝ) (hW : ∀ v, Given h v → W.contains (fat v).box = true) (ho : ¬ W.Mem o) :
    ∃ res, queryRayClosest64_2 (opsM2 bound fat area lt sub div im) s o d = .ok res ∧
      (res = none → ∀ v ∈ s.values.map Prod.snd, ¬ ∃ t, 0 ≤ t ∧ Around2 (bound v).box (-rayErr64 M) (along2 o d t)) ∧
      ∀ v p, res = some (v, p) → v ∈ s.values.map Prod.snd ∧ ∃ q t, p = vecR2 binary64 q ∧ 0 ≤ t ∧ Close2 (rayErr64 M) q (along2 o d t) ∧ Around2 (bound v).box (rayErr64 M) (along2 o d t) ∧
        ∀ w ∈ s.values.map Prod.snd, ∀ r, 0 ≤ r → Around2 (bound w).box (-rayErr64 M) (along2 o d r) →
          t * (d.x * d.x + d.y * d.y) ≤ r * (d.x * d.x + d.y * d.y) + distErr64 M := by
  obtain ⟨res, h1, h2, h3⟩ := c111_closest2_partial hM hM' bound fat area lt sub div im hfat he hd hu hr hh hn hray (fun i b hb hm => ho (mem_of_contains2
    ((c112_within _ he hr (fun b : Box2M M => W.contains b.box = true) (fun _ b h1 h2 => c25_union_least2 _ _ _ b.valid h1 h2) hW).1 i b hb) hm))
  refine ⟨res, h1, h2, fun v p e => ?_⟩
  obtain ⟨a, q, t, b1, b2, b3, b4, b5⟩ := h3 v p e
  refine ⟨a, q, t, b1, b2, b3, b4, fun w hw => b5 w hw fun hm => ho ?_⟩
  obtain ⟨e, he', rfl⟩ := List.mem_map.1 hw
  exact mem_of_contains2 (hW _ (mapOf_given ((exec_inv _ he).mem.1 he'))) (mem_of_contains2 (contains_real2 (hfat e.2)) hm)
theorem contains_real3 {a b : Box3M M} (h : a.f64.1.contains b.f64.1 = true) : a.box.contains b.box = true := by
  obtain ⟨⟨x1, x2⟩, ⟨y1, y2⟩, z1, z2⟩ := contains_iff3.1 h
  obtain ⟨-, ⟨⟨p1, p2, p3⟩, -⟩, ⟨q1, q2, q3⟩, -⟩ := a.fits
  obtain ⟨-, ⟨⟨r1, r2, r3⟩, -⟩, ⟨s1, s2, s3⟩, -⟩ := b.fits
  exact contains_iff3.2 ⟨⟨(num_le p1 r1).1 x1, (num_le s1 q1).1 x2⟩, ⟨(num_le p2 r2).1 y1, (num_le s2 q2).1 y2⟩, (num_le p3 r3).1 z1, (num_le s3 q3).1 z2⟩
/-- **C111 from outside the scene** (3D). -/
theorem c111_outside3_partial {V S : Type} (hM : 1 ≤ M) (hM' : M ≤ 2 ^ 249) (bound fat : V → Box3M M) (area : Aabb3 F64 → S) (lt : S → S → Bool) (sub div : S → S → S) (im : S)
    (hfat : ∀ v, (fat v).f64.1.contains (bound v).f64.1 = true) {h : Hist V} {s : Dbvt V (Box3M M)} (he : Exec (opsM3 bound fat area lt sub div im) h s) (hd : Disciplined (opsM3 bound fat area lt sub div im) h)
    (hu : UpToDate (opsM3 bound fat area lt sub div im) h) (hr : Refitted! h) {n : Nat} (hh : s.height = .ok n) (hn : n ≤ 256) (nz : V3 Bool) {o d : V3 ℝ} (hray : Ray3M M o d)
    (W : Aabb3 ℝ) (hW : ∀ v, Given h v → W.contains (fat v).box = true) (ho : ¬ W.Mem o) :
    ∃ res, queryRayClosest64_3 (opsM3 bound fat area lt sub div im) s nz o d = .ok res ∧
      (res = none → ∀ v ∈ s.values.map Prod.snd, ¬ ∃ t, 0 ≤ t ∧ Around3 (bound v).box (-rayErr64 M) (along3 o d t)) ∧
      ∀ v p, res = some (v, p) → v ∈ s.values.map Prod.snd ∧ ∃ q t, p = someV (vecR binary64 q) ∧ 0 ≤ t ∧ Close3 (rayErr64 M) q (along3 o d t) ∧ Around3 (bound v).box (rayErr64 M) (along3 o d t) ∧
        ∀ w ∈ s.values.map Prod.snd, ∀ r, 0 ≤ r → Around3 (bound w).box (-rayErr64 M) (along3 o d r) →
          t * (d.x * d.x + d.y * d.y + d.z * d.z) ≤ r * (d.x * d.x + d.y * d.y + d.z * d.z) + distErr64 M := by
  obtain ⟨res, h1, h2, h3⟩ := c111_closest3_partial hM hM' bound fat area lt sub div im hfat he hd hu hr hh hn nz hray (fun i b hb hm => ho (mem_of_contains3
    ((c112_within _ he hr (fun b : Box3M M => W.contains b.box = true) (fun _ b h1 h2 => c25_union_least3 _ _ _ b.fits.1 h1 h2) hW).1 i b hb) hm))
  refine ⟨res, h1, h2, fun v p e => ?_⟩
  obtain ⟨a, q, t, b1, b2, b3, b4, b5⟩ := h3 v p e
  refine ⟨a, q, t, b1, b2, b3, b4, fun w hw => b5 w hw fun hm => ho ?_⟩
  obtain ⟨e, he', rfl⟩ := List.mem_map.1 hw
  exact mem_of_contains3 (hW _ (mapOf_given ((exec_inv _ he).mem.1 he'))) (mem_of_contains3 (contains_real3 (hfat e.2)) hm)

/-! ## A case -/

/-- The unit square with the corner `(n, 0)`. -/
def rowAt (n : ℤ) : Aabb2 ℝ := ⟨⟨n, 0⟩, ⟨n + 1, 1⟩⟩
theorem rowAt_fits {n : ℤ} (h : n ∈ [2, 4]) : RpBox binary64 8 (rowAt n) ∧ (rowAt n).Valid := by
  have hn : n = 2 ∨ n = 4 := by simpa using h
  have r0 := rep_zero (R := binary64)
  have r1 := rep_one (R := binary64)
  have rn : Rep binary64 ((n : ℤ) : ℝ) := rep_int (by rcases hn with rfl | rfl <;> norm_num)
  have rn1 : Rep binary64 ((n : ℝ) + 1) := by
    have := rep_int (n := n + 1) (by rcases hn with rfl | rfl <;> norm_num)
    push_cast at this
    exact this
  refine ⟨⟨⟨⟨rn, r0⟩, ?_⟩, ⟨rn1, r1⟩, ?_⟩, ?_⟩ <;> rcases hn with rfl | rfl <;> norm_num [Sz, rowAt, Aabb2.Valid]
/-- The box of a value of the example. -/
def rowBox (v : { n : ℤ // n ∈ [2, 4] }) : Box2M 8 := ⟨rowAt v.1, (rowAt_fits v.2).1, (rowAt_fits v.2).2⟩
/-- A case: the ray from `(0, 1/2)` along `x` on a tree of the squares at 2 and 4, both of which it passes, is answered with the first, and the point is within the rounding error of `(2, 1/2)`. -/
theorem c111_example (rng : Nat → Nat) : ∃ (s : Dbvt { n : ℤ // n ∈ [2, 4] } (Box2M 8)) (q : V2 ℝ),
    queryRayClosest64_2 (opsM2 rowBox rowBox (fun _ => ()) (fun _ _ => false) (fun _ _ => ()) (fun _ _ => ()) ()) s ⟨0, 1 / 2⟩ ⟨1, 0⟩ = .ok (some (⟨2, by simp⟩, vecR2 binary64 q)) ∧
    |q.x - 2| ≤ 1 / 1024 ∧ |q.y - 1 / 2| ≤ 1 / 1024 := by
  obtain ⟨h, s, he, hd, hu, hr, hv⟩ := build_tree (opsM2 rowBox rowBox (fun _ => ()) (fun _ _ => false) (fun _ _ => ()) (fun _ _ => ()) ()) [⟨2, by simp⟩, ⟨4, by simp⟩] rng
  obtain ⟨n, hh, -, -, hn, -⟩ := c04_height _ he hr
  have hl : s.values.length = 2 := by rw [← List.length_map (f := Prod.snd), hv]; rfl
  have r0 := rep_zero (R := binary64)
  have r1 := rep_one (R := binary64)
  have rh : Rep binary64 (1 / 2) := rep_of_rep64 ⟨1, -1, by norm_num, by norm_num, by norm_num, by norm_num⟩
  obtain ⟨res, h1, h2, h3⟩ := c111_outside2_partial (M := 8) (by norm_num) (by norm_num) rowBox rowBox _ _ _ _ _ (fun v => c26_order2.1 _) he hd hu hr hh (by omega) (o := ⟨0, 1 / 2⟩) (d := ⟨1, 0⟩)
    ⟨⟨r0, rh⟩, by norm_num [Sz], ⟨r1, by norm_num, Or.inr (by rw [abs_one]; exact dirMin_le)⟩, ⟨r0, by norm_num, Or.inl rfl⟩, Or.inl one_ne_zero⟩ ⟨⟨2, 0⟩, ⟨5, 1⟩⟩
    (by
      rintro ⟨m, hm⟩ -
      have hm' : m = 2 ∨ m = 4 := by simpa using hm
      rcases hm' with rfl | rfl <;> exact contains_iff2.2 (by norm_num [rowBox, rowAt]))
    (by
      intro hm
      have := hm.1.1
      norm_num at this)
  rw [hv] at h2 h3
  have pass : Around2 (rowBox ⟨2, by simp⟩).box (-rayErr64 8) (along2 ⟨0, 1 / 2⟩ ⟨1, 0⟩ (2 + 1 / 2048)) := by norm_num [Around2, along2, rowBox, rowAt, rayErr64]
  cases res with
  | none => exact absurd ⟨_, by norm_num, pass⟩ (h2 rfl ⟨2, by simp⟩ (by simp))
  | some vp =>
    obtain ⟨v, p⟩ := vp
    obtain ⟨hvm, q, t, rfl, t0, hc, ha, hmin⟩ := h3 v p rfl
    have hm := hmin ⟨2, by simp⟩ (by simp) _ (by norm_num) pass
    norm_num [distErr64] at hm
    have hv2 : v = ⟨2, by simp⟩ := by
      simp only [List.mem_cons, List.not_mem_nil, or_false] at hvm
      rcases hvm with rfl | rfl
      · rfl
      · have := ha.1.1
        norm_num [rowBox, rowAt, along2, rayErr64] at this
        linarith
    subst hv2
    refine ⟨s, q, h1, ?_, ?_⟩
    · have e1 := hc.1
      have e2 := ha.1.1
      norm_num [rowBox, rowAt, along2, rayErr64, abs_le] at e1 e2 ⊢
      constructor <;> linarith [e1.1, e1.2]
    · have e1 := hc.2
      norm_num [along2, rayErr64, abs_le] at e1 ⊢
      constructor <;> linarith [e1.1, e1.2]
end
end Verif.Scene
