import Verif.Dbvt.Graded
import Verif.Scene.SphereUnion
/-!
# C119: trees of bounding spheres in rounded arithmetic

C103 is false: a tree of spheres in `f64` can lose a value. Here is how much of it is true, for `f32` and `f64`: a query reports every value whose sphere overlaps the query sphere by more than
`2500 n² u M`, where `n` is the height of the tree, `u` the unit roundoff and `M` the size of the scene, and no value whose sphere is further away than `60 u M`.
-/
namespace Verif.Scene
open Verif Geom Primitive Minkowski
open Verif.Dbvt (Rounding SphereF subF mag2F Ops Hist Dbvt Exec Disciplined UpToDate Refitted! discreteVisitor Given)
set_option linter.unusedSectionVars false
noncomputable section
open Classical
variable {F : Type} [LinearOrder F] {R : Rounding F} {u η Ω N M C P : ℝ}

variable (R) in
/-- `with_margin` of spheres, `src/volume/sphere.rs:37-43`, and `get_bound_with_margin`, `src/dbvt/wrapped.rs:51-53`. (`max` of two numbers; there are no NaNs in this model.) -/
def withMarginF (s : SphereF F) (add : V3 F) : SphereF F := ⟨s.center, R.add s.radius (max (max add.x add.y) add.z)⟩
variable (R) in
/-- A tree whose values have spheres as bounds and a margin (`TreeValueWrapped`, `src/dbvt/wrapped.rs:10-54`); areas and comparisons are left open. -/
def ballTreeOps {V S : Type} (bound : V → SphereF F) (margin : V → V3 F) (area : SphereF F → S) (lt : S → S → Bool) (sub div : S → S → S) (im : S) : Ops V (SphereF F) S where
  bound := bound
  fat v := withMarginF R (bound v) (margin v)
  union := SphereF.union R
  contains := SphereF.contains R
  area := area
  lt := lt
  sub := sub
  div := div
  improvement := im
/-- The largest component. -/
def top3 (m : V3 ℝ) : ℝ := max (max m.x m.y) m.z

theorem toF_max (x y : ℝ) : max (toF R x) (toF R y) = toF R (max x y) := by
  rcases le_total x y with h | h
  · rw [max_eq_right h, max_eq_right (toF_mono h)]
  · rw [max_eq_left h, max_eq_left (toF_mono h)]
theorem rep_max2 {x y : ℝ} (hx : Rep R x) (hy : Rep R y) : Rep R (max x y) := by
  rcases le_total x y with h | h
  · rwa [max_eq_right h]
  · rwa [max_eq_left h]
theorem toS_inj {s t : RSphere} (rs : RpS R s) (rt : RpS R t) (h : toS R s = toS R t) : s = t := by
  have h1 : toV3 R s.center = toV3 R t.center := congrArg SphereF.center h
  have h2 : toF R s.radius = toF R t.radius := congrArg SphereF.radius h
  have ex := (toF_inj rs.1.1 rt.1.1).1 (congrArg V3.x h1)
  have ey := (toF_inj rs.1.2.1 rt.1.2.1).1 (congrArg V3.y h1)
  have ez := (toF_inj rs.1.2.2 rt.1.2.2).1 (congrArg V3.z h1)
  have er := (toF_inj rs.2 rt.2).1 h2
  obtain ⟨⟨a, b, c⟩, r⟩ := s
  obtain ⟨⟨a', b', c'⟩, r'⟩ := t
  simp only at ex ey ez er
  rw [ex, ey, ez, er]

theorem hit_real {ε L T t D w : ℝ} (e0 : 0 ≤ ε) (eη : η ≤ ε) (eηη : 21 * η ≤ ε * ε) (hη : 0 ≤ η) (hu : 0 ≤ u) (hu' : u ≤ 1 / 4096) (L0 : 0 ≤ L) (T0 : 0 ≤ T) (uT : u * T ≤ 2 * ε) (hov : L + 40 * ε ≤ T) (ht : T - (u * T + η) ≤ t)
    (hD : D ≤ L * L + (10 * (u * (L * L)) + 21 * η)) (hw : t * t - (u * (t * t) + η) ≤ w) : D ≤ w := by
  have h1 : 0 ≤ T - 3 * ε := by linarith
  have h2 : (T - 3 * ε) * (T - 3 * ε) ≤ t * t := mul_self_le_mul_self h1 (by linarith)
  have h3 : (1 - u) * ((T - 3 * ε) * (T - 3 * ε)) ≤ (1 - u) * (t * t) := mul_le_mul_of_nonneg_left h2 (by linarith)
  have h4 : u * ((T - 3 * ε) * (T - 3 * ε)) ≤ u * (T * T) := mul_le_mul_of_nonneg_left (mul_self_le_mul_self h1 (by linarith)) hu
  have h5 : u * (T * T) ≤ 2 * (ε * T) := by
    have := mul_le_mul_of_nonneg_right uT T0
    linarith
  have h6 : L * L ≤ (T - 40 * ε) * (T - 40 * ε) := mul_self_le_mul_self L0 (by linarith)
  have h7 : 40 * (ε * ε) ≤ ε * T := by
    have := mul_le_mul_of_nonneg_left (show 40 * ε ≤ T by linarith) e0
    linarith
  have h8 : u * (L * L) ≤ u * (T * T) := mul_le_mul_of_nonneg_left (mul_self_le_mul_self L0 (by linarith)) hu
  have h9 : (T - 40 * ε) * (T - 40 * ε) = T * T - 80 * (ε * T) + 1600 * (ε * ε) := by ring
  have h10 : (T - 3 * ε) * (T - 3 * ε) = T * T - 6 * (ε * T) + 9 * (ε * ε) := by ring
  have h11 : 0 ≤ ε * ε := mul_nonneg e0 e0
  clear hov ht uT h1 h2 hu'
  linarith
theorem miss_real {ε L T t D w : ℝ} (e0 : 0 ≤ ε) (eηη : 21 * η ≤ ε * ε) (hη : 0 ≤ η) (hu : 0 ≤ u) (T0 : 0 ≤ T) (t0 : 0 ≤ t) (uL : u * L ≤ 4 * ε) (ht : t ≤ T + 3 * ε)
    (hD : L * L - (10 * (u * (L * L)) + 21 * η) ≤ D) (hw : w ≤ t * t + (u * (t * t) + η)) (hDw : D ≤ w) : L ≤ T + 60 * ε := by
  by_contra hcon
  push Not at hcon
  have Lp : 0 < L := by linarith
  have h1 : t * t ≤ t * L := mul_le_mul_of_nonneg_left (by linarith) t0
  have h2 : t * L < (L - 57 * ε) * L := mul_lt_mul_of_pos_right (by linarith) Lp
  have h3 : u * (t * t) ≤ u * (L * L) := mul_le_mul_of_nonneg_left (mul_self_le_mul_self t0 (by linarith)) hu
  have h4 : u * (L * L) ≤ 4 * (ε * L) := by
    have := mul_le_mul_of_nonneg_right uL Lp.le
    linarith
  have h5 : 60 * (ε * ε) ≤ ε * L := by
    have := mul_le_mul_of_nonneg_left (show 60 * ε ≤ L by linarith) e0
    linarith
  have h6 : (L - 57 * ε) * L = L * L - 57 * (ε * L) := by ring
  linarith

/-- The rounded test of two spheres, compared with the distance and the sum of the radii. -/
theorem intersects_err (h : TreeStd R u η Ω N) {s q : RSphere} (rs : RpS R s) (rq : RpS R q) (hs : InS N N s) (hq : InS N N q) :
    ((q.center - s.center).norm + 40 * (u * N) ≤ s.radius + q.radius → SphereF.intersects R (toS R s) (toS R q) = true) ∧
      (SphereF.intersects R (toS R s) (toS R q) = true → (q.center - s.center).norm ≤ s.radius + q.radius + 60 * (u * N)) := by
  obtain ⟨e0, eη, eηη, hη, hu⟩ := h.eps
  have hN := h.N0
  have uN : u * N ≤ 1 / 4096 * N := mul_le_mul_of_nonneg_right h.u' hN.le
  obtain ⟨v, D, rv, rD, ev, eD, -, D0, -, hD⟩ := dist2_err h rq.1 rs.1 hq.1 hs.1
  have hL := norm_diff_le hq.1 hs.1
  have L0 := (q.center - s.center).norm_nonneg
  set L := (q.center - s.center).norm
  have hs2 := hs.2
  have hq2 := hq.2
  have T0 : 0 ≤ s.radius + q.radius := by linarith
  have T2 : s.radius + q.radius ≤ 2 * N := by linarith
  obtain ⟨t, rt, et, dt⟩ := h.std.err (s.radius + q.radius) (by rw [abs_of_nonneg T0]; linarith [h.high'])
  rw [abs_of_nonneg T0] at dt
  have t0 : 0 ≤ t := fl_ge rt rep_zero et T0
  set T := s.radius + q.radius with hT
  have dt' := abs_le.1 dt
  have uT : u * T ≤ 1 / 4096 * T := mul_le_mul_of_nonneg_right h.u' T0
  have uT2 : u * T ≤ 2 * (u * N) := by
    have := mul_le_mul_of_nonneg_left T2 hu
    linarith
  have t3 : t ≤ 3 * N := by linarith
  have tt0 := mul_nonneg t0 t0
  obtain ⟨w, rw', ew, dw⟩ := h.std.err (t * t) (by
    rw [abs_of_nonneg tt0]
    have := mul_self_le_mul_self t0 t3
    nlinarith [h.high])
  rw [abs_of_nonneg tt0] at dw
  have dw' := abs_le.1 dw
  have hD' := abs_le.1 hD
  have e : SphereF.intersects R (toS R s) (toS R q) = true ↔ D ≤ w := by
    have e1 : SphereF.intersects R (toS R s) (toS R q) = true ↔ mag2F R (subF R (toV3 R q.center) (toV3 R s.center)) ≤ R.mul (R.add (toF R s.radius) (toF R q.radius)) (R.add (toF R s.radius) (toF R q.radius)) := by
      unfold SphereF.intersects
      exact decide_eq_true_iff
    rw [e1, ev, eD, radd rs.2 rq.2, et, rmul rt rt, ew]
    exact toF_le rD rw'
  have uL : u * L ≤ 4 * (u * N) := by
    have := mul_le_mul_of_nonneg_left hL hu
    linarith
  refine ⟨fun hov => e.2 (hit_real (t := t) e0 eη eηη hη hu h.u' L0 T0 uT2 hov (by linarith) (by linarith) (by linarith)), fun hi => ?_⟩
  exact miss_real (D := D) (w := w) e0 eηη hη hu T0 t0 uL (by linarith) (by linarith) (by linarith) (e.1 hi)

/-- The sphere of a leaf: that of the value with the margin. -/
theorem margin_err (h : TreeStd R u η Ω N) {s : RSphere} {m : V3 ℝ} (rs : RpS R s) (rm : Rep3 R m) (hs : InS M M s) (hm : 0 ≤ top3 m ∧ top3 m ≤ M / 2) (hMN : 2 * M ≤ N) (hu : u * N ≤ M / 4) :
    ∃ t, RpS R t ∧ withMarginF R (toS R s) (toV3 R m) = toS R t ∧ InS M (2 * M) t ∧ t.center = s.center := by
  obtain ⟨e0, eη, -, hη, hu0⟩ := h.eps
  have hM := hs.1.nonneg
  have hs2 := hs.2
  have rt : Rep R (top3 m) := rep_max2 (rep_max2 rm.1 rm.2.1) rm.2.2
  have em : (max (max (toV3 R m).x (toV3 R m).y) (toV3 R m).z : Fl R) = toF R (top3 m) := by
    show max (max (toF R m.x) (toF R m.y)) (toF R m.z) = _
    rw [toF_max, toF_max]
    rfl
  obtain ⟨r, rr, er, dr⟩ := h.std.fl (x := s.radius + top3 m) (X := N) (by rw [abs_of_nonneg (by linarith)]; linarith) (by linarith [h.high', h.N0])
  have dr' := abs_le.1 dr
  refine ⟨⟨s.center, r⟩, ⟨rs.1, rr⟩, ?_, ⟨hs.1, fl_ge rr rep_zero er (by linarith), by show r ≤ 2 * M; linarith⟩, rfl⟩
  show (⟨toV3 R s.center, R.add (toF R s.radius) (max (max (toV3 R m).x (toV3 R m).y) (toV3 R m).z)⟩ : SphereF F) = _
  have e2 : R.add (toF R s.radius) (max (max (toV3 R m).x (toV3 R m).y) (toV3 R m).z) = toF R r := by
    have : R.add (toF R s.radius) (max (max (toV3 R m).x (toV3 R m).y) (toV3 R m).z) = R.add (toF R s.radius) (toF R (top3 m)) := congrArg (R.add (toF R s.radius)) em
    rw [this, radd rs.2 rt, er]
  exact congrArg (SphereF.mk (toV3 R s.center)) e2

/-- A sphere lies inside of itself with a margin, by the rounded test. -/
theorem margin_contains {s : RSphere} {m : V3 ℝ} (rs : RpS R s) (rm : Rep3 R m) (hm : 0 ≤ top3 m) : SphereF.contains R (withMarginF R (toS R s) (toV3 R m)) (toS R s) = true := by
  have rt : Rep R (top3 m) := rep_max2 (rep_max2 rm.1 rm.2.1) rm.2.2
  have em : (max (max (toV3 R m).x (toV3 R m).y) (toV3 R m).z : Fl R) = toF R (top3 m) := by
    show max (max (toF R m.x) (toF R m.y)) (toF R m.z) = _
    rw [toF_max, toF_max]
    rfl
  have e2 : R.add (toF R s.radius) (max (max (toV3 R m).x (toV3 R m).y) (toV3 R m).z) = toF R (s.radius + top3 m) := by
    have : R.add (toF R s.radius) (max (max (toV3 R m).x (toV3 R m).y) (toV3 R m).z) = R.add (toF R s.radius) (toF R (top3 m)) := congrArg (R.add (toF R s.radius)) em
    rw [this, radd rs.2 rt]
  have e1 : subF R (toV3 R s.center) (toV3 R s.center) = toV3 R 0 := by
    show (⟨R.sub (toF R s.center.x) (toF R s.center.x), R.sub (toF R s.center.y) (toF R s.center.y), R.sub (toF R s.center.z) (toF R s.center.z)⟩ : V3 F) = _
    rw [rsub rs.1.1 rs.1.1, rsub rs.1.2.1 rs.1.2.1, rsub rs.1.2.2 rs.1.2.2, sub_self, sub_self, sub_self]
    rfl
  have e3 : mag2F R (toV3 R 0) = toF R 0 := by
    show R.add (R.add (R.mul (toF R 0) (toF R 0)) (R.mul (toF R 0) (toF R 0))) (R.mul (toF R 0) (toF R 0)) = _
    rw [rmul rep_zero rep_zero, mul_zero, radd rep_zero rep_zero, add_zero, radd rep_zero rep_zero, add_zero]
  have key : R.add (R.sqrt (mag2F R (subF R (toV3 R s.center) (toV3 R s.center)))) (toF R s.radius) ≤ R.add (toF R s.radius) (max (max (toV3 R m).x (toV3 R m).y) (toV3 R m).z) := by
    rw [e1, e3, rsqrt rep_zero, Real.sqrt_zero, radd rep_zero rs.2, zero_add, e2]
    exact toF_mono (by linarith)
  unfold SphereF.contains
  exact decide_eq_true_iff.2 key

section tree
variable {V S : Type} {bs : V → RSphere} {ms : V → V3 ℝ} {area : SphereF F → S} {lt : S → S → Bool} {sub div : S → S → S} {im : S}

/-- What a query with any visitor without state needs to see to reach a stored value: the sphere of the value itself, and spheres that enclose it up to `500 n u (5 n M)` and whose centres
are, up to `1000 n u (5 n M)`, on a side of a plane on which all centres given to the tree are. -/
theorem sphere_found (hb : ∀ v, RpS R (bs v)) (hm : ∀ v, Rep3 R (ms v) ∧ 0 ≤ top3 (ms v)) {h : Hist V} {s : Dbvt V (SphereF F)}
    (he : Exec (ballTreeOps R (fun v => toS R (bs v)) (fun v => toV3 R (ms v)) area lt sub div im) h s)
    (hd : Disciplined (ballTreeOps R (fun v => toS R (bs v)) (fun v => toV3 R (ms v)) area lt sub div im) h)
    (hu : UpToDate (ballTreeOps R (fun v => toS R (bs v)) (fun v => toV3 R (ms v)) area lt sub div im) h) (hr : Refitted! h) {n : ℕ} (hh : s.height = .ok n) (hn : n ≤ 256)
    (hT : TreeStd R u η Ω (5 * n * M)) (hsmall : 1500 * (n * n * u) ≤ 1) (hM : ∀ v, Given h v → InS M M (bs v) ∧ top3 (ms v) ≤ M / 2)
    {a : V3 ℝ} {m : ℝ} (ha : a.norm ≤ 2) (hfront : ∀ v, Given h v → m ≤ a.dot (bs v).center)
    {e : Nat × V} (hv : e ∈ s.values) {Q' : Type} (f : SphereF F → Option Q') {r : Q'} (hfe : f (toS R (bs e.2)) = some r)
    (hf : ∀ t, RpS R t → InS (2 * M) (5 * n * M) t → Inside (500 * (n * (u * (5 * n * M))) - 440 * (u * (5 * n * M))) (bs e.2) t → m - 1000 * (n * (u * (5 * n * M))) ≤ a.dot t.center → (f (toS R t)).isSome = true) :
    ∃ l, s.query (ballTreeOps R (fun v => toS R (bs v)) (fun v => toV3 R (ms v)) area lt sub div im) (Dbvt.pureVisitor fun b _ => f b) () = .ok l ∧ (e.2, r) ∈ l := by
  obtain ⟨e0, eη, -, hη, hu0⟩ := hT.eps
  have hgiven : Given h e.2 := by
    refine Dbvt.mapOf_given (i := e.1) ?_
    exact (Dbvt.exec_inv _ he).mem.1 hv
  have hM0 : 0 ≤ M := (hM _ hgiven).1.1.nonneg
  have hnpos : 1 ≤ (n : ℝ) := by
    have h1 := hT.N0
    rcases Nat.eq_zero_or_pos n with h0 | h0
    · rw [h0] at h1
      simp at h1
    · exact_mod_cast h0
  set ε := u * (5 * n * M) with hε
  have hnε : n * ε = 5 * (n * n * u * M) := by rw [hε]; ring
  have h300 : 300 * (n * ε) ≤ M := by
    rw [hnε]
    have := mul_le_mul_of_nonneg_right hsmall hM0
    linarith
  have hεn : ε ≤ n * ε := by
    have := mul_le_mul_of_nonneg_right hnpos e0
    linarith
  have hnM : M ≤ n * M := by
    have := mul_le_mul_of_nonneg_right hnpos hM0
    linarith
  have hZ := hM _ hgiven
  set Z := bs e.2 with hZdef
  have hZ' : InS (5 * n * M) (5 * n * M) Z := hZ.1.mono (by linarith) (by linarith)
  have sizes : ∀ k : ℕ, k + 1 ≤ n → M + 300 * (k * ε) ≤ 2 * M ∧ 2 * M + 5 * (k * M) ≤ 5 * n * M ∧ (k : ℝ) * ε ≤ n * ε - ε ∧ 0 ≤ (k : ℝ) * ε := by
    intro k hk
    have hk' : (k : ℝ) + 1 ≤ n := by exact_mod_cast hk
    have h1 := mul_le_mul_of_nonneg_right hk' e0
    have h2 := mul_le_mul_of_nonneg_right hk' hM0
    have h3 : 0 ≤ (k : ℝ) * ε := mul_nonneg (Nat.cast_nonneg k) e0
    refine ⟨by linarith, by linarith, by linarith, h3⟩
  refine Dbvt.graded_pure _ he hd hu hr hh hn hv (fun _ => True) (fun v _ => margin_contains (hb v) (hm v).1 (hm v).2) trivial
    (fun k x => ∃ t, RpS R t ∧ x = toS R t ∧ InS (M + 300 * (k * ε)) (2 * M + 5 * (k * M)) t ∧ m - 1000 * (k * ε) ≤ a.dot t.center)
    (fun k x => ∃ t, RpS R t ∧ x = toS R t ∧ Inside (60 * ε + 500 * (k * ε)) Z t) ?_ ?_ ?_ ?_ ?_ ?_ ?_ f hfe ?_
  · rintro k x ⟨t, rt, ex, ht, hf⟩
    refine ⟨t, rt, ex, ht.mono ?_ ?_, ?_⟩ <;> push_cast <;> linarith
  · rintro k x ⟨t, rt, ex, ht⟩
    refine ⟨t, rt, ex, ht.mono ?_⟩
    push_cast
    linarith
  · rintro k x y hk ⟨t, rt, rfl, ht, hf1⟩ ⟨t', rt', rfl, ht', hf2⟩
    obtain ⟨s1, s2, s3, s4⟩ := sizes k (by omega)
    obtain ⟨w, rw', ew, hw, -, -, hw2⟩ := union_err hT rt rt' ht ht' (by linarith) s2
    have := hw2 a _ ha hf1 hf2
    refine ⟨w, rw', ew, hw.mono ?_ ?_, ?_⟩ <;> push_cast <;> linarith
  · rintro k x y hk ⟨t, rt, rfl, ht, -⟩ ⟨t', rt', rfl, ht', -⟩ ⟨t2, rt2, e2, ht2⟩
    have := toS_inj rt rt2 e2
    subst this
    obtain ⟨s1, s2, s3, s4⟩ := sizes k (by omega)
    obtain ⟨w, rw', ew, -, hw, -, -⟩ := union_err hT rt rt' ht ht' (by linarith) s2
    refine ⟨w, rw', ew, (ht2.trans hw).mono ?_⟩
    push_cast
    linarith
  · rintro k x y hk ⟨t, rt, rfl, ht, -⟩ ⟨t', rt', rfl, ht', -⟩ ⟨t2, rt2, e2, ht2⟩
    have := toS_inj rt' rt2 e2
    subst this
    obtain ⟨s1, s2, s3, s4⟩ := sizes k (by omega)
    obtain ⟨w, rw', ew, -, -, hw, -⟩ := union_err hT rt rt' ht ht' (by linarith) s2
    refine ⟨w, rw', ew, (ht2.trans hw).mono ?_⟩
    push_cast
    linarith
  · intro v hg
    obtain ⟨t, rt, et, ht, hc⟩ := margin_err hT (hb v) (hm v).1 (hM v hg).1 ⟨(hm v).2, (hM v hg).2⟩ (by linarith) (by linarith)
    refine ⟨t, rt, et, ht.mono ?_ ?_, ?_⟩
    · push_cast; linarith
    · push_cast; linarith
    · rw [hc]
      push_cast
      linarith [hfront v hg]
  · rintro x ⟨t, rt, rfl, ht, -⟩ hc
    refine ⟨t, rt, rfl, ?_⟩
    have := (contains_err hT rt (hb e.2) (ht.mono (by push_cast; linarith) (by push_cast; linarith)) hZ').1 hc
    exact this.mono (by push_cast; linarith)
  · rintro k x hk ⟨t, rt, rfl, ht, hf1⟩ ⟨t2, rt2, e2, ht2⟩
    have := toS_inj rt rt2 e2
    subst this
    obtain ⟨s1, s2, s3, s4⟩ := sizes k (by omega)
    exact hf t rt (ht.mono s1 s2) (ht2.mono (by linarith)) (by linarith)

/-- **C119, nothing is lost but by rounding.** In a refitted, up-to-date tree of height `n` in which every sphere given to it has coordinates and radius at most `M`, a query returns every stored value whose sphere
overlaps the query sphere by `2500 n² u M` or more. -/
theorem c119_found (hb : ∀ v, RpS R (bs v)) (hm : ∀ v, Rep3 R (ms v) ∧ 0 ≤ top3 (ms v)) {h : Hist V} {s : Dbvt V (SphereF F)}
    (he : Exec (ballTreeOps R (fun v => toS R (bs v)) (fun v => toV3 R (ms v)) area lt sub div im) h s)
    (hd : Disciplined (ballTreeOps R (fun v => toS R (bs v)) (fun v => toV3 R (ms v)) area lt sub div im) h)
    (hu : UpToDate (ballTreeOps R (fun v => toS R (bs v)) (fun v => toV3 R (ms v)) area lt sub div im) h) (hr : Refitted! h) {n : ℕ} (hh : s.height = .ok n) (hn : n ≤ 256)
    (hT : TreeStd R u η Ω (5 * n * M)) (hsmall : 1500 * (n * n * u) ≤ 1) (hM : ∀ v, Given h v → InS M M (bs v) ∧ top3 (ms v) ≤ M / 2)
    {q : RSphere} (rq : RpS R q) (hq : InS M M q) {e : Nat × V} (hv : e ∈ s.values)
    (hov : (q.center - (bs e.2).center).norm + 2500 * (n * n * u * M) ≤ q.radius + (bs e.2).radius) :
    ∃ l, s.query (ballTreeOps R (fun v => toS R (bs v)) (fun v => toV3 R (ms v)) area lt sub div im) (discreteVisitor fun b => SphereF.intersects R b (toS R q)) () = .ok l ∧ e.2 ∈ l.map Prod.fst := by
  obtain ⟨e0, -, -, -, -⟩ := hT.eps
  have hM0 : 0 ≤ M := hq.1.nonneg
  have hnpos : 1 ≤ (n : ℝ) := by
    have h1 := hT.N0
    rcases Nat.eq_zero_or_pos n with h0 | h0
    · rw [h0] at h1
      simp at h1
    · exact_mod_cast h0
  have hnM : M ≤ n * M := by
    have := mul_le_mul_of_nonneg_right hnpos hM0
    linarith
  have hgiven : Given h e.2 := Dbvt.mapOf_given (i := e.1) ((Dbvt.exec_inv _ he).mem.1 hv)
  have hq' : InS (5 * n * M) (5 * n * M) q := hq.mono (by linarith) (by linarith)
  have hZ' : InS (5 * n * M) (5 * n * M) (bs e.2) := (hM _ hgiven).1.mono (by linarith) (by linarith)
  have hnq : 2500 * (n * n * u * M) = 500 * (n * (u * (5 * n * M))) := by ring
  rw [hnq] at hov
  have hεn : u * (5 * n * M) ≤ n * (u * (5 * n * M)) := by
    have := mul_le_mul_of_nonneg_right hnpos e0
    linarith
  have ctest : ∀ t, RpS R t → InS (5 * n * M) (5 * n * M) t → (q.center - t.center).norm + 40 * (u * (5 * n * M)) ≤ t.radius + q.radius → SphereF.intersects R (toS R t) (toS R q) = true :=
    fun t rt ht => (intersects_err hT rt rq ht hq').1
  obtain ⟨l, h1, h2⟩ := sphere_found hb hm he hd hu hr hh hn hT hsmall hM (a := 0) (m := 0) (by simp [V3.norm, V3.dot]) (fun v _ => by simp [V3.dot]) hv
    (fun b => if SphereF.intersects R b (toS R q) then some () else none) (r := ()) (if_pos (ctest _ (hb e.2) hZ' (by linarith))) (by
      intro t rt ht hin _
      rw [if_pos (ctest t rt (ht.mono (by linarith) le_rfl) ?_)]
      · rfl
      have h1 := V3.norm_tri q.center (bs e.2).center t.center
      unfold Inside at hin
      linarith)
  exact ⟨l, h1, List.mem_map.2 ⟨_, h2, rfl⟩⟩

/-- **C119, nothing is reported but by rounding.** What a query reports has a sphere that is at most `60 u M` away from the query sphere. -/
theorem c119_reported (hb : ∀ v, RpS R (bs v)) {h : Hist V} {s : Dbvt V (SphereF F)}
    (he : Exec (ballTreeOps R (fun v => toS R (bs v)) (fun v => toV3 R (ms v)) area lt sub div im) h s) (hT : TreeStd R u η Ω M) (hM : ∀ v, Given h v → InS M M (bs v))
    {q : RSphere} (rq : RpS R q) (hq : InS M M q) {l : List (Nat × Unit)}
    (hl : s.queryForIndices (ballTreeOps R (fun v => toS R (bs v)) (fun v => toV3 R (ms v)) area lt sub div im) (discreteVisitor fun b => SphereF.intersects R b (toS R q)) () = .ok l) :
    (l.map Prod.fst).Nodup ∧ ∀ k ∈ l.map Prod.fst, ∃ e : Nat × V, s.values[k]? = some e ∧ (q.center - (bs e.2).center).norm ≤ q.radius + (bs e.2).radius + 60 * (u * M) := by
  obtain ⟨h1, h2⟩ := Dbvt.c103_partial R _ _ area lt sub div im (toS R q) he hl
  refine ⟨h1, fun k hk => ?_⟩
  obtain ⟨e, h3, h4⟩ := h2 k hk
  have hgiven : Given h e.2 := Dbvt.mapOf_given (i := e.1) ((Dbvt.exec_inv _ he).mem.1 (List.mem_of_getElem? h3))
  have := (intersects_err hT (hb e.2) rq (hM _ hgiven) hq).2 h4
  exact ⟨e, h3, by linarith⟩
end tree
end
end Verif.Scene
