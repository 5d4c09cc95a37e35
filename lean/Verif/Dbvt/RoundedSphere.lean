import Verif.Dbvt.Binary64
import Verif.Dbvt.RayClosest
/-!
# C103: trees of spheres under rounding

`Sphere` with rounded arithmetic, and a tree of two spheres in `f64` that loses a value.
-/
namespace Verif.Dbvt
open Verif Geom
set_option linter.unusedSectionVars false
noncomputable section
open Classical
variable {F : Type} [LinearOrder F] (R : Rounding F)

/-- Rounded square root (`magnitude` of cgmath calls `sqrt`); of a negative number the model gives 0, it does not occur on sums of squares. -/
def Rounding.sqrt (a : F) : F := R.rnd (if R.val a = ⊤ then ⊤ else ((Real.sqrt (R.val a).toReal : ℝ) : EReal))
/-- The value `one() + one()` of `src/volume/sphere.rs:165`. -/
def Rounding.two : F := R.add R.one R.one

/-- `Sphere`, `src/volume/sphere.rs:11-16` -/
structure SphereF (F : Type) where
  center : V3 F
  radius : F

/-- The difference of two points. -/
def subF (a b : V3 F) : V3 F := ⟨R.sub a.x b.x, R.sub a.y b.y, R.sub a.z b.z⟩
/-- `magnitude2` of cgmath: the components are summed from the left. -/
def mag2F (v : V3 F) : F := R.add (R.add (R.mul v.x v.x) (R.mul v.y v.y)) (R.mul v.z v.z)
/-- `Discrete<Sphere>`, `src/volume/sphere.rs:96-103` -/
def SphereF.intersects (s1 s2 : SphereF F) : Bool :=
  let distance := mag2F R (subF R s2.center s1.center)
  let radiuses := R.add s1.radius s2.radius
  distance ≤ R.mul radiuses radiuses
/-- `Contains<Sphere>`, `src/volume/sphere.rs:149-152` -/
def SphereF.contains (s o : SphereF F) : Bool := R.add (R.sqrt (mag2F R (subF R o.center s.center))) o.radius ≤ s.radius
/-- `Union`, `src/volume/sphere.rs:158-173` -/
def SphereF.union (s o : SphereF F) : SphereF F :=
  if s.contains R o then s else
  if o.contains R s then o else
  let diff := subF R o.center s.center
  let diffS := R.sqrt (mag2F R diff)
  let radius := R.div (R.add (R.add s.radius o.radius) diffS) R.two
  let k := R.sub radius s.radius
  { radius := radius
    center := ⟨R.add s.center.x (R.div (R.mul diff.x k) diffS), R.add s.center.y (R.div (R.mul diff.y k) diffS), R.add s.center.z (R.div (R.mul diff.z k) diffS)⟩ }

/-- A tree of spheres, without a margin; area, comparison and the other scalar operations are left open. -/
def sphereOps {S : Type} (area : SphereF F → S) (lt : S → S → Bool) (sub div : S → S → S) (im : S) : Ops (SphereF F) (SphereF F) S where
  bound s := s
  fat s := s
  union := SphereF.union R
  contains := SphereF.contains R
  area := area
  lt := lt
  sub := sub
  div := div
  improvement := im

section two
variable {V B S : Type}
/-- The tree with two values. -/
def twoTree (O : Ops V B S) (a b : V) : Dbvt V B :=
  { (Dbvt.new : Dbvt V B) with
    nodes := [.nil, .leaf ⟨2, 0, O.fat a⟩, .branch ⟨0, 1, 3, 2, O.union (O.fat a) (O.fat b)⟩, .leaf ⟨2, 1, O.fat b⟩]
    values := [(1, a), (3, b)]
    root := 2 }
theorem twoTree_run (O : Ops V B S) (a b : V) (rng : Nat → Nat) :
    ∃ h, runCalls O 20 ([a, b].map .insert ++ [.tick rng]) [] Dbvt.new = some (h, twoTree O a b) := ⟨_, rfl⟩
theorem twoTree_query (O : Ops V B S) (a b : V) (test : B → Bool) (ht : test (O.union (O.fat a) (O.fat b)) = false) :
    (twoTree O a b).query O (discreteVisitor test) () = .ok [] := by
  have hv : discreteVisitor test () (O.union (O.fat a) (O.fat b)) false = (none, ()) := by simp [discreteVisitor, pureVisitor, ht]
  simp [Dbvt.query, Dbvt.queryForIndices, queryLoop, twoTree, nodeAt, Res.ofOption, hv, mapRes]
end two

/-! ## Exact operations of binary64 -/
theorem val_fin {r : ℝ} (h : Rep64 r) : binary64.val (F64.fin r h) = (r : EReal) := rfl
theorem rnd_fin {r : ℝ} (h : Rep64 r) : binary64.rnd (r : EReal) = F64.fin r h := binary64.rnd_val (F64.fin r h)
theorem add_fin {a b : ℝ} (ha : Rep64 a) (hb : Rep64 b) (h : Rep64 (a + b)) : binary64.add (F64.fin a ha) (F64.fin b hb) = F64.fin _ h := by
  rw [Rounding.add, val_fin, val_fin, ← EReal.coe_add, rnd_fin h]
theorem sub_fin {a b : ℝ} (ha : Rep64 a) (hb : Rep64 b) (h : Rep64 (a - b)) : binary64.sub (F64.fin a ha) (F64.fin b hb) = F64.fin _ h := by
  rw [Rounding.sub, val_fin, val_fin, ← EReal.coe_sub, rnd_fin h]
theorem mul_fin {a b : ℝ} (ha : Rep64 a) (hb : Rep64 b) (h : Rep64 (a * b)) : binary64.mul (F64.fin a ha) (F64.fin b hb) = F64.fin _ h := by
  rw [Rounding.mul, val_fin, val_fin, ← EReal.coe_mul, rnd_fin h]
theorem div_fin {a b : ℝ} (ha : Rep64 a) (hb : Rep64 b) (h : Rep64 (a / b)) : binary64.div (F64.fin a ha) (F64.fin b hb) = F64.fin _ h := by
  rw [Rounding.div, val_fin, val_fin, ← EReal.coe_div, rnd_fin h]
theorem sqrt_fin {a : ℝ} (ha : Rep64 a) (h : Rep64 (Real.sqrt a)) : binary64.sqrt (F64.fin a ha) = F64.fin _ h := by
  rw [Rounding.sqrt, val_fin, if_neg (EReal.coe_ne_top a), EReal.toReal_coe, rnd_fin h]
theorem fin_eq {a b : ℝ} (ha : Rep64 a) (hb : Rep64 b) (h : a = b) : F64.fin a ha = F64.fin b hb := by subst h; rfl

theorem rep64_int (m : ℤ) (e : ℕ) (hm : |m| < 2 ^ 53) (he : e ≤ 971) : Rep64 ((m : ℝ) * 2 ^ e) :=
  ⟨m, e, hm, by omega, by omega, by rw [zpow_natCast]⟩

/-- `2^53 + 1` lies in the middle between two numbers of binary64; the lower one is even. -/
theorem rnd_tie (h : Rep64 (2 ^ 53)) : binary64.rnd ((2 ^ 53 + 1 : ℝ) : EReal) = F64.fin (2 ^ 53) h := by
  refine le_antisymm ?_ ?_
  · have hr := rnd64_reaches ((2 ^ 53 + 1 : ℝ) : EReal)
    change rnd64 _ ≤ _
    rcases hr with hr | ⟨hr, hx⟩ | ⟨r, hr, e, -, hs⟩
    · rw [hr]; exact bot_le (α := EReal)
    · exfalso
      have := EReal.coe_le_coe_iff.1 hx
      unfold over64 at this
      have e2 : (2 : ℝ) ^ 1024 = 2 ^ 54 * 2 ^ 970 := by rw [← pow_add]
      have e3 : (2 : ℝ) ^ 970 = 2 ^ 54 * 2 ^ 916 := by rw [← pow_add]
      have e4 : (1 : ℝ) ≤ 2 ^ 916 := one_le_pow₀ (by norm_num)
      rw [e2, e3] at this
      generalize (2 : ℝ) ^ 916 = q at *
      norm_num at this
      clear e2 e3
      linarith
    · rw [e]
      refine fin_le.2 (not_lt.1 fun hlt => ?_)
      have key : ∀ m e, Sig m e r → ∃ k : ℕ, r = m * 2 ^ (k + 1) := by
        rintro m e ⟨h1, h2, h3, h4⟩
        have he : 1 ≤ e := by
          by_contra hcon
          have hp : (2 : ℝ) ^ e ≤ 2 ^ (0 : ℤ) := zpow_le_zpow_right₀ (by norm_num) (by omega)
          have hpos : (0 : ℝ) < (2 : ℝ) ^ e := zpow_pos (by norm_num) e
          have hm : (m : ℝ) < 2 ^ 53 := by exact_mod_cast (abs_lt.1 h1).2
          rw [zpow_zero] at hp
          rw [h4] at hlt
          nlinarith
        obtain ⟨k, hk⟩ := Int.eq_ofNat_of_zero_le (show 0 ≤ e - 1 by omega)
        refine ⟨k, ?_⟩
        rw [h4, show e = ((k + 1 : ℕ) : ℤ) by push_cast; omega, zpow_natCast]
      obtain ⟨m, e', hsig⟩ := hr
      obtain ⟨k, hk⟩ := key m e' hsig
      have hz : r = ((m * 2 ^ (k + 1) : ℤ) : ℝ) := by rw [hk]; push_cast; ring
      have hlt' : (2 ^ 53 : ℤ) < m * 2 ^ (k + 1) := by
        rw [hz] at hlt; exact_mod_cast hlt
      have hge : (2 ^ 53 + 2 : ℤ) ≤ m * 2 ^ (k + 1) := by
        have : m * 2 ^ (k + 1) = 2 * (m * 2 ^ k) := by ring
        omega
      have hge' : (2 ^ 53 + 2 : ℝ) ≤ r := by rw [hz]; exact_mod_cast hge
      rcases hs _ h hlt with h5 | ⟨h5, m', e2, hev, hsig'⟩
      · have := EReal.coe_lt_coe_iff.1 h5
        linarith
      · have h6 := EReal.coe_eq_coe_iff.1 h5
        obtain ⟨k', hk'⟩ := key m' e2 hsig'
        obtain ⟨n, hn⟩ := hev
        have h7 : ((4 * (n * 2 ^ k') : ℤ) : ℝ) = ((2 ^ 53 + 2 : ℤ) : ℝ) := by
          push_cast
          have h9 : r = 9007199254740994 := by linarith
          rw [← h9, hk', hn]; push_cast; ring
        have h8 : 4 * (n * 2 ^ k') = (2 ^ 53 + 2 : ℤ) := by exact_mod_cast h7
        omega
  · have : binary64.rnd ((2 ^ 53 : ℝ) : EReal) = F64.fin (2 ^ 53) h := rnd_fin h
    rw [← this]
    exact binary64.rnd_mono (EReal.coe_le_coe_iff.2 (by linarith))

/-! ## The witness -/
theorem repN : Rep64 (2 ^ 53) := by simpa using rep64_int 1 53 (by norm_num) (by norm_num)
theorem repNN : Rep64 (2 ^ 106) := by simpa using rep64_int 1 106 (by norm_num) (by norm_num)
theorem repH : Rep64 (2 ^ 52) := by simpa using rep64_int 1 52 (by norm_num) (by norm_num)
theorem repHH : Rep64 (2 ^ 104) := by simpa using rep64_int 1 104 (by norm_num) (by norm_num)
theorem repTwo : Rep64 2 := by simpa using rep64_int 1 1 (by norm_num) (by norm_num)
theorem repC : Rep64 (2 ^ 52 - 1) := by
  have := rep64_int (2 ^ 52 - 1) 0 (by norm_num) (by norm_num)
  convert this using 1
  push_cast; ring
theorem repD : Rep64 (2 ^ 52 + 1) := by
  have := rep64_int (2 ^ 52 + 1) 0 (by norm_num) (by norm_num)
  convert this using 1
  push_cast; ring
theorem repNC : Rep64 (2 ^ 53 * (2 ^ 52 - 1)) := by
  have := rep64_int (2 ^ 52 - 1) 53 (by norm_num) (by norm_num)
  convert this using 1
  push_cast; ring
theorem repE : Rep64 (2 ^ 104 + 2 ^ 53) := by
  have := rep64_int (2 ^ 51 + 1) 53 (by norm_num) (by norm_num)
  convert this using 1
  push_cast; ring
theorem repNeg1 : Rep64 (-1) := by simpa using rep64_int (-1) 0 (by norm_num) (by norm_num)
theorem repNegN : Rep64 (-(2 ^ 53)) := by simpa using rep64_int (-1) 53 (by norm_num) (by norm_num)

/-- 0 -/
def f0 : F64 := F64.fin 0 rep64_zero
/-- 1 -/
def f1 : F64 := F64.fin 1 rep64_one
/-- 2^53 -/
def fN : F64 := F64.fin _ repN

/-- The sphere of radius 1 around the origin. -/
def sA : SphereF F64 := ⟨⟨f0, f0, f0⟩, f1⟩
/-- The point (2^53, 0, 0), as a sphere of radius 0. -/
def sB : SphereF F64 := ⟨⟨fN, f0, f0⟩, f0⟩
/-- What the code returns for their union: its rightmost point is 2^53 - 1. -/
def sU : SphereF F64 := ⟨⟨F64.fin _ repC, f0, f0⟩, F64.fin _ repH⟩

theorem add_f0 (a : F64) : binary64.add a f0 = a := by
  have : binary64.val f0 = 0 := binary64.val_zero
  rw [Rounding.add, this, add_zero, binary64.rnd_val]
theorem f0_add (a : F64) : binary64.add f0 a = a := by
  have : binary64.val f0 = 0 := binary64.val_zero
  rw [Rounding.add, this, zero_add, binary64.rnd_val]
theorem sub_f0 (a : F64) : binary64.sub a f0 = a := by
  have : binary64.val f0 = 0 := binary64.val_zero
  rw [Rounding.sub, this, sub_zero, binary64.rnd_val]
theorem f0_mul (a : F64) : binary64.mul f0 a = f0 := by
  have : binary64.val f0 = 0 := binary64.val_zero
  rw [Rounding.mul, this, zero_mul, ← this, binary64.rnd_val]
theorem f0_div (a : F64) : binary64.div f0 a = f0 := by
  have : binary64.val f0 = 0 := binary64.val_zero
  rw [Rounding.div, this, EReal.zero_div, ← this, binary64.rnd_val]
theorem mag2_flat (a : F64) : mag2F binary64 ⟨a, f0, f0⟩ = binary64.mul a a := by
  unfold mag2F
  rw [f0_mul, add_f0, add_f0]
theorem sub_flat (a b : F64) : subF binary64 ⟨a, f0, f0⟩ ⟨b, f0, f0⟩ = ⟨binary64.sub a b, f0, f0⟩ := by
  unfold subF
  rw [sub_f0]

theorem dist_AB : binary64.sqrt (mag2F binary64 (subF binary64 sB.center sA.center)) = fN := by
  unfold sA sB
  rw [sub_flat, sub_f0, mag2_flat]
  have h : Rep64 ((2 : ℝ) ^ 53 * 2 ^ 53) := by rw [← pow_add]; exact repNN
  have hs : Real.sqrt ((2 : ℝ) ^ 53 * 2 ^ 53) = 2 ^ 53 := Real.sqrt_mul_self (by positivity)
  unfold fN
  rw [mul_fin repN repN h, sqrt_fin h (by rw [hs]; exact repN)]
  exact fin_eq _ _ hs
theorem dist_BA : binary64.sqrt (mag2F binary64 (subF binary64 sA.center sB.center)) = fN := by
  unfold sA sB
  have e0 : binary64.sub f0 fN = F64.fin (-(2 ^ 53)) repNegN := by
    unfold f0 fN
    rw [sub_fin rep64_zero repN (by rw [zero_sub]; exact repNegN)]
    exact fin_eq _ _ (zero_sub _)
  rw [sub_flat, e0, mag2_flat]
  have h : Rep64 (-(2 : ℝ) ^ 53 * -2 ^ 53) := by rw [neg_mul_neg, ← pow_add]; exact repNN
  have hs : Real.sqrt (-(2 : ℝ) ^ 53 * -2 ^ 53) = 2 ^ 53 := by rw [neg_mul_neg]; exact Real.sqrt_mul_self (by positivity)
  rw [mul_fin repNegN repNegN h, sqrt_fin h (by rw [hs]; exact repN)]
  exact fin_eq _ _ hs
theorem add_tie : binary64.add f1 fN = fN := by
  unfold Rounding.add f1 fN
  rw [val_fin, val_fin, ← EReal.coe_add, add_comm, rnd_tie]
theorem tie_add : binary64.add fN f1 = fN := by
  unfold Rounding.add f1 fN
  rw [val_fin, val_fin, ← EReal.coe_add, rnd_tie]
theorem two_fin : binary64.two = F64.fin 2 repTwo := by
  have h : Rep64 ((1 : ℝ) + 1) := by norm_num; exact repTwo
  change binary64.add (F64.fin 1 rep64_one) (F64.fin 1 rep64_one) = _
  rw [add_fin _ _ h]
  exact fin_eq _ _ (by norm_num)

theorem union_AB : SphereF.union binary64 sA sB = sU := by
  have c1 : SphereF.contains binary64 sA sB = false := by
    unfold SphereF.contains
    rw [dist_AB]
    change decide (binary64.add fN f0 ≤ f1) = false
    rw [add_f0, decide_eq_false_iff_not]
    unfold fN f1
    rw [fin_le]; norm_num
  have c2 : SphereF.contains binary64 sB sA = false := by
    unfold SphereF.contains
    rw [dist_BA]
    change decide (binary64.add fN f1 ≤ f0) = false
    rw [tie_add, decide_eq_false_iff_not]
    unfold fN f0
    rw [fin_le]; norm_num
  unfold SphereF.union
  rw [c1, c2]
  dsimp only
  rw [dist_AB]
  have e1 : binary64.add sA.radius sB.radius = f1 := add_f0 _
  have e2 : binary64.div fN binary64.two = F64.fin _ repH := by
    have h : (2 : ℝ) ^ 53 / 2 = 2 ^ 52 := by norm_num
    unfold fN
    rw [two_fin, div_fin repN repTwo (by rw [h]; exact repH)]
    exact fin_eq _ _ h
  have e3 : binary64.sub (F64.fin _ repH) sA.radius = F64.fin _ repC := sub_fin repH rep64_one repC
  have e4 : subF binary64 sB.center sA.center = ⟨fN, f0, f0⟩ := by unfold sA sB; rw [sub_flat, sub_f0]
  have e5 : binary64.div (binary64.mul fN (F64.fin _ repC)) fN = F64.fin _ repC := by
    have h : (2 : ℝ) ^ 53 * (2 ^ 52 - 1) / 2 ^ 53 = 2 ^ 52 - 1 := by field_simp
    unfold fN
    rw [mul_fin repN repC repNC, div_fin repNC repN (by rw [h]; exact repC)]
    exact fin_eq _ _ h
  simp only [Bool.false_eq_true, if_false, e1, add_tie, e2, e3, e4, e5, f0_mul, f0_div]
  change (⟨⟨binary64.add f0 _, binary64.add f0 f0, binary64.add f0 f0⟩, _⟩ : SphereF F64) = _
  rw [f0_add, f0_add]
  rfl

theorem union_misses : SphereF.intersects binary64 sU sB = false := by
  unfold SphereF.intersects
  rw [decide_eq_false_iff_not, not_le]
  have e1 : binary64.add sU.radius sB.radius = F64.fin _ repH := add_f0 _
  have e2 : subF binary64 sB.center sU.center = ⟨F64.fin _ repD, f0, f0⟩ := by
    have h : (2 : ℝ) ^ 53 - (2 ^ 52 - 1) = 2 ^ 52 + 1 := by norm_num
    unfold sB sU
    rw [sub_flat]
    unfold fN
    rw [sub_fin repN repC (by rw [h]; exact repD)]
    simp only [fin_eq _ repD h]
  have e3 : binary64.mul (F64.fin _ repH) (F64.fin _ repH) = F64.fin _ repHH := by
    have h : (2 : ℝ) ^ 52 * 2 ^ 52 = 2 ^ 104 := by rw [← pow_add]
    rw [mul_fin repH repH (by rw [h]; exact repHH)]
    exact fin_eq _ _ h
  rw [e1, e2, e3, mag2_flat]
  refine lt_of_lt_of_le (b := F64.fin _ repE) ?_ ?_
  · exact lt_of_not_ge fun h => by have := fin_le.1 h; norm_num at this
  · rw [← rnd_fin repE, Rounding.mul, val_fin, ← EReal.coe_mul]
    exact binary64.rnd_mono (EReal.coe_le_coe_iff.2 (by norm_num))
theorem point_hit : SphereF.intersects binary64 sB sB = true := by
  unfold SphereF.intersects
  rw [decide_eq_true_eq]
  unfold sB
  have e : binary64.sub fN fN = f0 := by
    unfold fN
    rw [sub_fin repN repN (by rw [sub_self]; exact rep64_zero)]
    exact fin_eq _ _ (sub_self _)
  rw [sub_flat, e, mag2_flat, f0_mul, add_f0, f0_mul]

/-- **C103, refuted.** In `f64` a tree of spheres can lose a value: two spheres are inserted and `tick` is called, the query sphere passes the test against the bound of the second value (it is equal to it), but the query reports nothing. Nothing depends on the surface areas. -/
theorem c103_false {S : Type} (area : SphereF F64 → S) (lt : S → S → Bool) (sub div : S → S → S) (im : S) :
    ¬ ∀ (q : SphereF F64) (h : Hist (SphereF F64)) (s : Dbvt (SphereF F64) (SphereF F64)),
      Exec (sphereOps binary64 area lt sub div im) h s → Disciplined (sphereOps binary64 area lt sub div im) h →
      UpToDate (sphereOps binary64 area lt sub div im) h → Refitted! h →
      ∀ l, s.query (sphereOps binary64 area lt sub div im) (discreteVisitor fun b => SphereF.intersects binary64 b q) () = .ok l →
      ∀ e ∈ s.values, SphereF.intersects binary64 e.2 q = true → e.2 ∈ l.map Prod.fst := by
  intro H
  obtain ⟨h, hr⟩ := twoTree_run (sphereOps binary64 area lt sub div im) sA sB (fun _ => 0)
  obtain ⟨he, hd, hu, hf⟩ := run_inserts hr
  have hq := twoTree_query (sphereOps binary64 area lt sub div im) sA sB (fun b => SphereF.intersects binary64 b sB) (by
    change SphereF.intersects binary64 (SphereF.union binary64 sA sB) sB = false
    rw [union_AB, union_misses])
  have := H sB h _ he hd hu hf [] hq (3, sB) (by simp [twoTree]) point_hit
  simp at this

/-- C103, what holds: whatever the rounding, a query reports only values whose own bound passes the test, and no stored value twice.
Missing: that it reports all of them, see `c103_false`. -/
theorem c103_partial {V S : Type} (bound fat : V → SphereF F) (area : SphereF F → S) (lt : S → S → Bool) (sub div : S → S → S) (im : S) (q : SphereF F)
    {h : Hist V} {s : Dbvt V (SphereF F)}
    (he : Exec ⟨bound, fat, SphereF.union R, SphereF.contains R, area, lt, sub, div, im⟩ h s) {l : List (Nat × Unit)}
    (hl : s.queryForIndices ⟨bound, fat, SphereF.union R, SphereF.contains R, area, lt, sub, div, im⟩ (discreteVisitor fun b => SphereF.intersects R b q) () = .ok l) :
    (l.map Prod.fst).Nodup ∧ ∀ k ∈ l.map Prod.fst, ∃ e : Nat × V, s.values[k]? = some e ∧ SphereF.intersects R (bound e.2) q = true := by
  obtain ⟨h1, h2⟩ := c08_query_sound _ he _ _ hl
  refine ⟨h1, fun k hk => ?_⟩
  obtain ⟨⟨k', r⟩, hm, rfl⟩ := List.mem_map.1 hk
  obtain ⟨e, st', h3, h4⟩ := h2 _ _ hm
  refine ⟨e, h3, ?_⟩
  simp only [discreteVisitor, pureVisitor] at h4
  by_contra hc
  simp [hc] at h4

/-- The tree of `c103_false` is reached. -/
example {S : Type} (area : SphereF F64 → S) (lt : S → S → Bool) (sub div : S → S → S) (im : S) :
    ∃ h, Exec (sphereOps binary64 area lt sub div im) h (twoTree (sphereOps binary64 area lt sub div im) sA sB) :=
  let ⟨h, hr⟩ := twoTree_run (sphereOps binary64 area lt sub div im) sA sB (fun _ => 0)
  ⟨h, (run_inserts hr).1⟩

end
end Verif.Dbvt
