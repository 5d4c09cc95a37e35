import Verif.Scene.SphereFormats
import Verif.Scene.F64Culling
import Verif.Dbvt.Props2
/-!
# C123: culling queries on trees of bounding spheres in rounded arithmetic

Branches of a tree of spheres need not enclose what is below them in rounded arithmetic (C103). A culling query still returns every value that has a point inside all planes by `2500 n² u M`, `n` being the height of the tree, `u` the
unit roundoff and `M` the size of the scene, and classifies each returned value by its own sphere up to `80 u M`.
-/
namespace Verif.Scene
open Verif Geom Primitive Minkowski
open Verif.Dbvt (Rounding SphereF subF mag2F Ops Hist Dbvt Exec Disciplined UpToDate Refitted! pureVisitor Given PlaneF F64 binary64 Rep64)
open Verif.Dbvt.B32 (F32 binary32 Rep32)
set_option linter.unusedSectionVars false
noncomputable section
open Classical
variable {F : Type} [LinearOrder F] {R : Rounding F} {u η Ω N M : ℝ}

variable (R) in
/-- `Frustum::contains` of a sphere, `src/frustum.rs:83-101`: the largest relation to the planes. -/
def frustumSphereF (planes : List (PlaneF F)) (s : SphereF F) : Relation := planes.foldl (fun cur p => cur.max (relateSphereF R s p)) .In
variable (R) in
/-- `FrustumVisitor`, `src/dbvt/visitor.rs:126-143`: everything but `Out` is accepted. -/
def cullF (planes : List (PlaneF F)) (b : SphereF F) : Option Relation := if frustumSphereF R planes b = .Out then none else some (frustumSphereF R planes b)
variable (R) in
/-- A plane with numbers of the format, a normal of length 1 up to rounding, not further away than twice the size of the scene. -/
structure PlaneIn (u M : ℝ) (P : Plane ℝ) : Prop where
  rn : Rep3 R P.n
  rd : Rep R P.d
  near : |P.d| ≤ 2 * M
  unit : |P.n.norm - 1| ≤ 8 * u

/-- The points of a sphere. -/
def RSphere.Mem (s : RSphere) (p : V3 ℝ) : Prop := (p - s.center).norm ≤ s.radius

theorem foldl_outS (b : SphereF F) (l : List (PlaneF F)) (a : Relation) : l.foldl (fun cur p => cur.max (relateSphereF R b p)) a = .Out ↔ a = .Out ∨ ∃ P ∈ l, relateSphereF R b P = .Out := by
  have m : ∀ x y : Relation, x.max y = .Out ↔ x = .Out ∨ y = .Out := by
    intro x y
    cases x <;> cases y <;> simp [Relation.max]
  induction l generalizing a with
  | nil => simp
  | cons p l ih =>
    rw [List.foldl_cons]
    refine (ih (a.max (relateSphereF R b p))).trans ?_
    simp [m, or_assoc]
theorem foldl_inS (b : SphereF F) (l : List (PlaneF F)) (a : Relation) : l.foldl (fun cur p => cur.max (relateSphereF R b p)) a = .In ↔ a = .In ∧ ∀ P ∈ l, relateSphereF R b P = .In := by
  have m : ∀ x y : Relation, x.max y = .In ↔ x = .In ∧ y = .In := by
    intro x y
    cases x <;> cases y <;> simp [Relation.max]
  induction l generalizing a with
  | nil => simp
  | cons p l ih =>
    rw [List.foldl_cons]
    refine (ih (a.max (relateSphereF R b p))).trans ?_
    simp [m, and_assoc]
theorem frustumS_out (planes : List (Plane ℝ)) (b : SphereF F) : frustumSphereF R (planes.map (planeR R)) b = .Out ↔ ∃ P ∈ planes, relateSphereF R b (planeR R P) = .Out := by
  unfold frustumSphereF
  rw [foldl_outS]
  simp
theorem frustumS_in (planes : List (Plane ℝ)) (b : SphereF F) : frustumSphereF R (planes.map (planeR R)) b = .In ↔ ∀ P ∈ planes, relateSphereF R b (planeR R P) = .In := by
  unfold frustumSphereF
  rw [foldl_inS]
  simp

theorem comp_le_norm (v : V3 ℝ) : Sz3 v.norm v := by
  have h := v.norm_sq
  simp only [V3.dot] at h
  have hx := mul_self_nonneg v.x
  have hy := mul_self_nonneg v.y
  have hz := mul_self_nonneg v.z
  refine ⟨?_, ?_, ?_⟩ <;> refine abs_le_of_sq_le_sq ?_ v.norm_nonneg <;> nlinarith

theorem PlaneIn.fits {P : Plane ℝ} (hu : u ≤ 1 / 4096) (h : PlaneIn R u M P) : FitsP R 2 P := by
  have h1 := (abs_le.1 h.unit).2
  have h2 := comp_le_norm P.n
  exact ⟨h.rn, ⟨h2.1.trans (by linarith), h2.2.1.trans (by linarith), h2.2.2.trans (by linarith)⟩, h.rd⟩

theorem gap_diff {P : Plane ℝ} (p c : V3 ℝ) : |Plane.gap P p - Plane.gap P c| ≤ P.n.norm * (p - c).norm := by
  have h := gap_center (P := P) (s := ⟨c, (p - c).norm⟩) (p := p) (le_refl _)
  rw [mul_comm]
  exact h

/-- The test of a sphere against a plane. -/
theorem relate_err (h : Std R u η Ω) (hu : u ≤ 1 / 4096) (hM : 0 ≤ M) (hΩ : 18 * M + 1 ≤ Ω) {P : Plane ℝ} (hP : PlaneIn R u M P) {s : RSphere} (rs : RpS R s) (hs : InS (2 * M) N s) (hN : N ≤ Ω) :
    ∃ t : ℝ, |t - Plane.gap P s.center| ≤ 54 * (u * M) + 8 * η ∧ (relateSphereF R (toS R s) (planeR R P) = .Out ↔ t < -s.radius) ∧ (relateSphereF R (toS R s) (planeR R P) = .In ↔ s.radius < t) := by
  obtain ⟨t, h1, h2, h3⟩ := relate_center (M := 2 * M) (N := 2) h (by linarith) (by linarith) (hP.fits hu) hP.near (s := ⟨s.center, s.radius⟩) rs.1 hs.1 rs.2 hs.2.1 (hs.2.2.trans hN)
  refine ⟨t, h1.trans (by linarith), h2, h3⟩

/-- The sphere has a point on the side of the plane its centre is displaced to. -/
theorem gap_extreme {P : Plane ℝ} (hn : 0 < P.n.norm) (c : V3 ℝ) (r : ℝ) : Plane.gap P (c + P.n * (r / P.n.norm)) = Plane.gap P c + r * P.n.norm := by
  have h := P.n.norm_sq
  simp only [V3.dot] at h
  have e : Plane.gap P (c + P.n * (r / P.n.norm)) = Plane.gap P c + (r / P.n.norm) * (P.n.x * P.n.x + P.n.y * P.n.y + P.n.z * P.n.z) := by
    simp [Plane.gap]; ring
  rw [e, ← h]
  field_simp
theorem mem_extreme {P : Plane ℝ} (hn : 0 < P.n.norm) (s : RSphere) (h0 : 0 ≤ s.radius) {r : ℝ} (hr : |r| = s.radius) : s.Mem (s.center + P.n * (r / P.n.norm)) := by
  have e : s.center + P.n * (r / P.n.norm) - s.center = P.n * (r / P.n.norm) := by ext <;> simp
  unfold RSphere.Mem
  rw [e, V3.norm_smul, abs_div, abs_of_pos hn, hr]
  exact le_of_eq (by field_simp)

section tree
variable {V S : Type} {bs : V → RSphere} {ms : V → V3 ℝ} {area : SphereF F → S} {lt : S → S → Bool} {sub div : S → S → S} {im : S}

/-- **C123, nothing visible is lost but by rounding.** In a refitted, up-to-date tree of height `n` in which every sphere given to it has coordinates and radius at most `M`, a culling query returns every stored value whose sphere
has a point that is inside all planes by `2500 n² u M`. -/
theorem c123_found (hb : ∀ v, RpS R (bs v)) (hm : ∀ v, Rep3 R (ms v) ∧ 0 ≤ top3 (ms v)) {h : Hist V} {s : Dbvt V (SphereF F)}
    (he : Exec (ballTreeOps R (fun v => toS R (bs v)) (fun v => toV3 R (ms v)) area lt sub div im) h s)
    (hd : Disciplined (ballTreeOps R (fun v => toS R (bs v)) (fun v => toV3 R (ms v)) area lt sub div im) h)
    (hu : UpToDate (ballTreeOps R (fun v => toS R (bs v)) (fun v => toV3 R (ms v)) area lt sub div im) h) (hr : Refitted! h) {n : ℕ} (hh : s.height = .ok n) (hn : n ≤ 256)
    (hT : TreeStd R u η Ω (5 * n * M)) (hΩ : 2 ≤ Ω) (hsmall : 1500 * (n * n * u) ≤ 1) (hM : ∀ v, Given h v → InS M M (bs v) ∧ top3 (ms v) ≤ M / 2)
    {planes : List (Plane ℝ)} (hP : ∀ P ∈ planes, PlaneIn R u M P) {e : Nat × V} (hv : e ∈ s.values)
    {p : V3 ℝ} (hp : (bs e.2).Mem p) (hin : ∀ P ∈ planes, 2500 * (n * n * u * M) ≤ Plane.gap P p) :
    ∃ l r, s.query (ballTreeOps R (fun v => toS R (bs v)) (fun v => toV3 R (ms v)) area lt sub div im) (pureVisitor fun b _ => cullF R (planes.map (planeR R)) b) () = .ok l ∧ (e.2, r) ∈ l := by
  obtain ⟨e0, eη, -, hη, hu0⟩ := hT.eps
  have hgiven : Given h e.2 := Dbvt.mapOf_given (i := e.1) ((Dbvt.exec_inv _ he).mem.1 hv)
  have hZ := (hM _ hgiven).1
  have hM0 : 0 ≤ M := hZ.1.nonneg
  have hnpos : 1 ≤ (n : ℝ) := by
    have h1 := hT.N0
    rcases Nat.eq_zero_or_pos n with h0 | h0
    · rw [h0] at h1
      simp at h1
    · exact_mod_cast h0
  have hnM : M ≤ n * M := by
    have := mul_le_mul_of_nonneg_right hnpos hM0
    linarith
  have hh' := hT.high'
  have hu' := hT.u'
  set ε := u * (5 * n * M) with hε
  have hεn : ε ≤ n * ε := by
    have := mul_le_mul_of_nonneg_right hnpos e0
    linarith
  have huM : 5 * (u * M) ≤ ε := by
    have := mul_le_mul_of_nonneg_left hnM hu0
    rw [hε]
    linarith
  have hnq : 2500 * (n * n * u * M) = 500 * (n * ε) := by rw [hε]; ring
  rw [hnq] at hin
  have key : ∀ t, RpS R t → InS (2 * M) (5 * n * M) t → (p - t.center).norm ≤ t.radius + (500 * (n * ε) - 440 * ε) → cullF R (planes.map (planeR R)) (toS R t) = some (frustumSphereF R (planes.map (planeR R)) (toS R t)) := by
    intro t rt ht hpt
    refine if_neg fun hout => ?_
    obtain ⟨P, hPm, hrel⟩ := (frustumS_out planes _).1 hout
    obtain ⟨w, hw, h1, -⟩ := relate_err hT.std hu' hM0 (by linarith) (hP P hPm) rt ht (by linarith)
    have h2 := h1.1 hrel
    have h3 := (abs_le.1 (gap_diff (P := P) p t.center)).2
    have h4 := (abs_le.1 (hP P hPm).unit).2
    have h5 := hin P hPm
    have h6 := ht.2.2
    have h7 : P.n.norm * (p - t.center).norm ≤ (1 + 8 * u) * (t.radius + (500 * (n * ε) - 440 * ε)) := mul_le_mul (by linarith) hpt (V3.norm_nonneg _) (by linarith)
    have h8 : u * t.radius ≤ ε := by
      have := mul_le_mul_of_nonneg_left h6 hu0
      rw [hε]
      linarith
    have h9 : u * (500 * (n * ε) - 440 * ε) ≤ ε := by
      have q1 : (n : ℝ) * ε * u ≤ 1 / 1500 * ε := by
        have q2 : 1500 * ((n : ℝ) * u) ≤ 1 := by
          have := mul_le_mul_of_nonneg_right (mul_le_mul_of_nonneg_right hnpos (by linarith : (0:ℝ) ≤ n)) hu0
          linarith
        have := mul_le_mul_of_nonneg_right q2 e0
        linarith
      have q3 := mul_nonneg hu0 e0
      linarith
    have h10 := (abs_le.1 hw).1
    linarith
  have hin0 : (p - (bs e.2).center).norm ≤ (bs e.2).radius := hp
  obtain ⟨l, h1, h2⟩ := sphere_found hb hm he hd hu hr hh hn hT hsmall hM (a := 0) (m := 0) (by simp [V3.norm, V3.dot]) (fun v _ => by simp [V3.dot]) hv (cullF R (planes.map (planeR R)))
    (key _ (hb e.2) (hZ.mono (by linarith) (by linarith)) (by linarith)) (by
      intro t rt ht hi _
      rw [key t rt ht ?_]
      · rfl
      have h1 := V3.norm_tri p (bs e.2).center t.center
      unfold Inside at hi
      linarith)
  exact ⟨l, _, h1, h2⟩

/-- **C123, the relations that are reported.** What a culling query returns for a value fits its own sphere up to `80 u M`: with `In` all of its points are inside all planes, and with any other relation some point is inside each of
them; a sphere that is inside all planes by more is `In`. No value is returned twice. -/
theorem c123_reported (hb : ∀ v, RpS R (bs v)) {h : Hist V} {s : Dbvt V (SphereF F)}
    (he : Exec (ballTreeOps R (fun v => toS R (bs v)) (fun v => toV3 R (ms v)) area lt sub div im) h s) (hT : TreeStd R u η Ω M) (hΩ : 2 ≤ Ω) (hM : ∀ v, Given h v → InS M M (bs v))
    {planes : List (Plane ℝ)} (hP : ∀ P ∈ planes, PlaneIn R u M P) {l : List (Nat × Relation)}
    (hl : s.queryForIndices (ballTreeOps R (fun v => toS R (bs v)) (fun v => toV3 R (ms v)) area lt sub div im) (pureVisitor fun b _ => cullF R (planes.map (planeR R)) b) () = .ok l) :
    (l.map Prod.fst).Nodup ∧ ∀ k r, (k, r) ∈ l → ∃ e : Nat × V, s.values[k]? = some e ∧ r ≠ .Out ∧
      (∀ P ∈ planes, ∃ p, (bs e.2).Mem p ∧ -(80 * (u * M)) ≤ Plane.gap P p) ∧ (r = .In → ∀ P ∈ planes, ∀ p, (bs e.2).Mem p → -(80 * (u * M)) ≤ Plane.gap P p) ∧
      ((∀ P ∈ planes, ∀ p, (bs e.2).Mem p → 80 * (u * M) < Plane.gap P p) → r = .In) := by
  obtain ⟨h1, h2⟩ := Dbvt.c08_query_sound _ he _ _ hl
  refine ⟨h1, fun k r hk => ?_⟩
  obtain ⟨e, st, h3, h4⟩ := h2 k r hk
  obtain ⟨e0, eη, -, hη, hu0⟩ := hT.eps
  have hh' := hT.high'
  have hu' := hT.u'
  have hM0 := hT.N0
  have hgiven : Given h e.2 := Dbvt.mapOf_given (i := e.1) ((Dbvt.exec_inv _ he).mem.1 (List.mem_of_getElem? h3))
  have hZ := hM _ hgiven
  have h5 : cullF R (planes.map (planeR R)) (toS R (bs e.2)) = some r := h4
  have hr : frustumSphereF R (planes.map (planeR R)) (toS R (bs e.2)) ≠ .Out ∧ r = frustumSphereF R (planes.map (planeR R)) (toS R (bs e.2)) := by
    unfold cullF at h5
    split at h5
    · cases h5
    · rename_i h6
      exact ⟨h6, (Option.some.inj h5).symm⟩
  have k' := fun P hPm => relate_err (N := M) hT.std hu' hM0.le (by linarith) (hP P hPm) (hb e.2) (hZ.mono (by linarith) le_rfl) (by linarith)
  have hur : u * (bs e.2).radius ≤ u * M := mul_le_mul_of_nonneg_left hZ.2.2 hu0
  have r0 := hZ.2.1
  have nr : ∀ P ∈ planes, 0 < P.n.norm ∧ |(bs e.2).radius * P.n.norm - (bs e.2).radius| ≤ 8 * (u * M) := by
    intro P hPm
    have q1 := (hP P hPm).unit
    refine ⟨by linarith [(abs_le.1 q1).1], ?_⟩
    have : (bs e.2).radius * P.n.norm - (bs e.2).radius = (bs e.2).radius * (P.n.norm - 1) := by ring
    rw [this, abs_mul, abs_of_nonneg r0]
    have := mul_le_mul_of_nonneg_left q1 r0
    linarith
  refine ⟨e, h3, by rw [hr.2]; exact hr.1, fun P hPm => ?_, fun hIn P hPm p hp => ?_, fun hall => ?_⟩
  · obtain ⟨q1, q2⟩ := nr P hPm
    refine ⟨_, mem_extreme q1 (bs e.2) r0 (r := (bs e.2).radius) (abs_of_nonneg r0), ?_⟩
    rw [gap_extreme q1]
    obtain ⟨w, hw, o1, -⟩ := k' P hPm
    have : ¬ w < -(bs e.2).radius := fun hc => hr.1 ((frustumS_out planes _).2 ⟨P, hPm, o1.2 hc⟩)
    have := (abs_le.1 hw).2
    have := (abs_le.1 q2).1
    linarith
  · rw [hr.2] at hIn
    obtain ⟨w, hw, -, o2⟩ := k' P hPm
    have q3 := o2.1 ((frustumS_in planes _).1 hIn P hPm)
    obtain ⟨q1, q2⟩ := nr P hPm
    have q4 := (abs_le.1 (gap_diff (P := P) p (bs e.2).center)).1
    have q5 : P.n.norm * (p - (bs e.2).center).norm ≤ P.n.norm * (bs e.2).radius := mul_le_mul_of_nonneg_left hp q1.le
    have := (abs_le.1 hw).2
    have := (abs_le.1 q2).2
    linarith
  · rw [hr.2, frustumS_in]
    intro P hPm
    obtain ⟨w, hw, -, o2⟩ := k' P hPm
    obtain ⟨q1, q2⟩ := nr P hPm
    have q6 := hall P hPm _ (mem_extreme q1 (bs e.2) r0 (r := -(bs e.2).radius) (by rw [abs_neg, abs_of_nonneg r0]))
    rw [gap_extreme q1] at q6
    have := (abs_le.1 hw).1
    have := (abs_le.1 q2).1
    refine o2.2 ?_
    linarith
end tree

theorem two_le64 : (2 : ℝ) ≤ (2 : ℝ) ^ (1022 : ℤ) := by
  have := zpow2_le (show (1 : ℤ) ≤ 1022 by norm_num)
  rwa [zpow_one] at this

section formats
variable {V S : Type} {bs : V → RSphere} {ms : V → V3 ℝ} {lt : S → S → Bool} {sub div : S → S → S} {im : S}
/-- **C123 in `f64`**, for scenes of sizes from `2^-400` to `2^400`. (Queries of trees higher than 256 panic, C11.) -/
theorem c123_f64_found {area : SphereF F64 → S} (hb : ∀ v, RpS binary64 (bs v)) (hm : ∀ v, Rep3 binary64 (ms v) ∧ 0 ≤ top3 (ms v)) {h : Hist V} {s : Dbvt V (SphereF F64)}
    (he : Exec (ballTreeOps binary64 (fun v => toS binary64 (bs v)) (fun v => toV3 binary64 (ms v)) area lt sub div im) h s)
    (hd : Disciplined (ballTreeOps binary64 (fun v => toS binary64 (bs v)) (fun v => toV3 binary64 (ms v)) area lt sub div im) h)
    (hu : UpToDate (ballTreeOps binary64 (fun v => toS binary64 (bs v)) (fun v => toV3 binary64 (ms v)) area lt sub div im) h) (hr : Refitted! h) {n : ℕ} (hh : s.height = .ok n) (hn : n ≤ 256)
    {M : ℝ} (hlo : (2 : ℝ) ^ (-400 : ℤ) ≤ M) (hhi : M ≤ (2 : ℝ) ^ (400 : ℤ)) (hM : ∀ v, Given h v → InS M M (bs v) ∧ top3 (ms v) ≤ M / 2)
    {planes : List (Plane ℝ)} (hP : ∀ P ∈ planes, PlaneIn binary64 ((2 : ℝ) ^ (-53 : ℤ)) M P) {e : Nat × V} (hv : e ∈ s.values)
    {p : V3 ℝ} (hp : (bs e.2).Mem p) (hin : ∀ P ∈ planes, 2500 * (n * n * (2 : ℝ) ^ (-53 : ℤ) * M) ≤ Plane.gap P p) :
    ∃ l r, s.query (ballTreeOps binary64 (fun v => toS binary64 (bs v)) (fun v => toV3 binary64 (ms v)) area lt sub div im) (pureVisitor fun b _ => cullF binary64 (planes.map (planeR binary64)) b) () = .ok l ∧ (e.2, r) ∈ l := by
  obtain ⟨t1, t2⟩ := tree_size (height_ne_zero he hr hh hv) (by omega) hlo hhi
  refine c123_found hb hm he hd hu hr hh (by omega) (tree64 t1 (t2.trans (zpow2_le (by norm_num)))) two_le64 ?_ hM hP hv hp hin
  have h1 : ((n : ℝ) * n) ≤ 256 * 256 := by
    have : (n : ℝ) ≤ 256 := by exact_mod_cast hn
    exact mul_le_mul this this (Nat.cast_nonneg n) (by norm_num)
  have h2 := mul_le_mul_of_nonneg_right h1 (zpow2_pos (-53)).le
  have h3 : (2 : ℝ) ^ (-53 : ℤ) = 1 / 9007199254740992 := by norm_num
  rw [h3] at h2 ⊢
  linarith
/-- **C123 in `f64`**, what is reported. -/
theorem c123_f64_reported {area : SphereF F64 → S} (hb : ∀ v, RpS binary64 (bs v)) {h : Hist V} {s : Dbvt V (SphereF F64)}
    (he : Exec (ballTreeOps binary64 (fun v => toS binary64 (bs v)) (fun v => toV3 binary64 (ms v)) area lt sub div im) h s) {M : ℝ} (hlo : (2 : ℝ) ^ (-400 : ℤ) ≤ M) (hhi : M ≤ (2 : ℝ) ^ (400 : ℤ))
    (hM : ∀ v, Given h v → InS M M (bs v)) {planes : List (Plane ℝ)} (hP : ∀ P ∈ planes, PlaneIn binary64 ((2 : ℝ) ^ (-53 : ℤ)) M P) {l : List (Nat × Relation)}
    (hl : s.queryForIndices (ballTreeOps binary64 (fun v => toS binary64 (bs v)) (fun v => toV3 binary64 (ms v)) area lt sub div im) (pureVisitor fun b _ => cullF binary64 (planes.map (planeR binary64)) b) () = .ok l) :
    (l.map Prod.fst).Nodup ∧ ∀ k r, (k, r) ∈ l → ∃ e : Nat × V, s.values[k]? = some e ∧ r ≠ .Out ∧
      (∀ P ∈ planes, ∃ p, (bs e.2).Mem p ∧ -(80 * ((2 : ℝ) ^ (-53 : ℤ) * M)) ≤ Plane.gap P p) ∧ (r = .In → ∀ P ∈ planes, ∀ p, (bs e.2).Mem p → -(80 * ((2 : ℝ) ^ (-53 : ℤ) * M)) ≤ Plane.gap P p) ∧
      ((∀ P ∈ planes, ∀ p, (bs e.2).Mem p → 80 * ((2 : ℝ) ^ (-53 : ℤ) * M) < Plane.gap P p) → r = .In) :=
  c123_reported hb he (tree64 hlo (hhi.trans (zpow2_le (by norm_num)))) two_le64 hM hP hl
/-- **C123 in `f32`**, for scenes of sizes from `2^-36` to `2^40` and heights up to 100. -/
theorem c123_f32_found {area : SphereF F32 → S} (hb : ∀ v, RpS binary32 (bs v)) (hm : ∀ v, Rep3 binary32 (ms v) ∧ 0 ≤ top3 (ms v)) {h : Hist V} {s : Dbvt V (SphereF F32)}
    (he : Exec (ballTreeOps binary32 (fun v => toS binary32 (bs v)) (fun v => toV3 binary32 (ms v)) area lt sub div im) h s)
    (hd : Disciplined (ballTreeOps binary32 (fun v => toS binary32 (bs v)) (fun v => toV3 binary32 (ms v)) area lt sub div im) h)
    (hu : UpToDate (ballTreeOps binary32 (fun v => toS binary32 (bs v)) (fun v => toV3 binary32 (ms v)) area lt sub div im) h) (hr : Refitted! h) {n : ℕ} (hh : s.height = .ok n) (hn : n ≤ 100)
    {M : ℝ} (hlo : (2 : ℝ) ^ (-36 : ℤ) ≤ M) (hhi : M ≤ (2 : ℝ) ^ (40 : ℤ)) (hM : ∀ v, Given h v → InS M M (bs v) ∧ top3 (ms v) ≤ M / 2)
    {planes : List (Plane ℝ)} (hP : ∀ P ∈ planes, PlaneIn binary32 ((2 : ℝ) ^ (-24 : ℤ)) M P) {e : Nat × V} (hv : e ∈ s.values)
    {p : V3 ℝ} (hp : (bs e.2).Mem p) (hin : ∀ P ∈ planes, 2500 * (n * n * (2 : ℝ) ^ (-24 : ℤ) * M) ≤ Plane.gap P p) :
    ∃ l r, s.query (ballTreeOps binary32 (fun v => toS binary32 (bs v)) (fun v => toV3 binary32 (ms v)) area lt sub div im) (pureVisitor fun b _ => cullF binary32 (planes.map (planeR binary32)) b) () = .ok l ∧ (e.2, r) ∈ l := by
  obtain ⟨t1, t2⟩ := tree_size (height_ne_zero he hr hh hv) (by omega) hlo hhi
  refine c123_found hb hm he hd hu hr hh (by omega) (tree32 t1 (t2.trans (zpow2_le (by norm_num)))) (by norm_num) ?_ hM hP hv hp hin
  have h1 : ((n : ℝ) * n) ≤ 100 * 100 := by
    have : (n : ℝ) ≤ 100 := by exact_mod_cast hn
    exact mul_le_mul this this (Nat.cast_nonneg n) (by norm_num)
  have h2 := mul_le_mul_of_nonneg_right h1 (zpow2_pos (-24)).le
  have h3 : (2 : ℝ) ^ (-24 : ℤ) = 1 / 16777216 := by norm_num
  rw [h3] at h2 ⊢
  linarith
/-- **C123 in `f32`**, what is reported. -/
theorem c123_f32_reported {area : SphereF F32 → S} (hb : ∀ v, RpS binary32 (bs v)) {h : Hist V} {s : Dbvt V (SphereF F32)}
    (he : Exec (ballTreeOps binary32 (fun v => toS binary32 (bs v)) (fun v => toV3 binary32 (ms v)) area lt sub div im) h s) {M : ℝ} (hlo : (2 : ℝ) ^ (-36 : ℤ) ≤ M) (hhi : M ≤ (2 : ℝ) ^ (40 : ℤ))
    (hM : ∀ v, Given h v → InS M M (bs v)) {planes : List (Plane ℝ)} (hP : ∀ P ∈ planes, PlaneIn binary32 ((2 : ℝ) ^ (-24 : ℤ)) M P) {l : List (Nat × Relation)}
    (hl : s.queryForIndices (ballTreeOps binary32 (fun v => toS binary32 (bs v)) (fun v => toV3 binary32 (ms v)) area lt sub div im) (pureVisitor fun b _ => cullF binary32 (planes.map (planeR binary32)) b) () = .ok l) :
    (l.map Prod.fst).Nodup ∧ ∀ k r, (k, r) ∈ l → ∃ e : Nat × V, s.values[k]? = some e ∧ r ≠ .Out ∧
      (∀ P ∈ planes, ∃ p, (bs e.2).Mem p ∧ -(80 * ((2 : ℝ) ^ (-24 : ℤ) * M)) ≤ Plane.gap P p) ∧ (r = .In → ∀ P ∈ planes, ∀ p, (bs e.2).Mem p → -(80 * ((2 : ℝ) ^ (-24 : ℤ) * M)) ≤ Plane.gap P p) ∧
      ((∀ P ∈ planes, ∀ p, (bs e.2).Mem p → 80 * ((2 : ℝ) ^ (-24 : ℤ) * M) < Plane.gap P p) → r = .In) :=
  c123_reported hb he (tree32 hlo (hhi.trans (zpow2_le (by norm_num)))) (by norm_num) hM hP hl
end formats

/-! ## Their hypotheses -/
/-- The half space of points whose first coordinate is at least 5. -/
def fivePlane : Plane ℝ := ⟨⟨1, 0, 0⟩, 5⟩
theorem fivePlane_in : PlaneIn binary32 ((2 : ℝ) ^ (-24 : ℤ)) 10 fivePlane where
  rn := ⟨rep_one, rep_zero, rep_zero⟩
  rd := by simpa [fivePlane] using rep32_int 5 (by norm_num)
  near := by norm_num [fivePlane]
  unit := by
    have : fivePlane.n.norm = 1 := by simp [V3.norm, V3.dot, fivePlane]
    rw [this]
    norm_num
/-- A reachable tree of two spheres in `f32`: of a sphere at 0 and one at 10 the second is returned for the half space from 5 on, as `In`; the first is not. -/
example {S : Type} (area : SphereF F32 → S) (lt : S → S → Bool) (sub div : S → S → S) (im : S) :
    ∃ h s, Exec (ballTreeOps binary32 (fun v => toS binary32 (twoBalls v)) (fun _ => toV3 binary32 0) area lt sub div im) h s ∧
      ∃ l, s.queryForIndices (ballTreeOps binary32 (fun v => toS binary32 (twoBalls v)) (fun _ => toV3 binary32 0) area lt sub div im) (pureVisitor fun b _ => cullF binary32 ([fivePlane].map (planeR binary32)) b) () = .ok l ∧
        (∃ r, s.query (ballTreeOps binary32 (fun v => toS binary32 (twoBalls v)) (fun _ => toV3 binary32 0) area lt sub div im) (pureVisitor fun b _ => cullF binary32 ([fivePlane].map (planeR binary32)) b) () = .ok r ∧ true ∈ r.map Prod.fst) ∧
        ∀ k r, (k, r) ∈ l → ∃ i, s.values[k]? = some (i, true) ∧ r = .In := by
  obtain ⟨h, hr⟩ := Dbvt.twoTree_run (ballTreeOps binary32 (fun v => toS binary32 (twoBalls v)) (fun _ => toV3 binary32 0) area lt sub div im) false true (fun _ => 0)
  obtain ⟨he, hd, hu, hf⟩ := Dbvt.run_inserts hr
  have h3 : (2 : ℝ) ^ (-24 : ℤ) = 1 / 16777216 := by norm_num
  have hP : ∀ P ∈ [fivePlane], PlaneIn binary32 ((2 : ℝ) ^ (-24 : ℤ)) 10 P := fun P hP => by
    rw [List.mem_singleton] at hP
    subst hP
    exact fivePlane_in
  have c : ∀ b p, (twoBalls b).Mem p → |p.x - (if b then 10 else 0)| ≤ 1 := by
    intro b p hp
    have := (comp_le_norm (p - (twoBalls b).center)).1
    exact this.trans hp
  obtain ⟨l, r, q1, q2⟩ := c123_f32_found (bs := twoBalls) (ms := fun _ => 0) (n := 2) (M := 10) (e := (3, true)) twoBalls_rep (fun _ => ⟨⟨rep_zero, rep_zero, rep_zero⟩, by simp [top3]⟩) he hd hu hf rfl (by norm_num) (by norm_num) (by norm_num)
    (fun v _ => ⟨twoBalls_size v, by norm_num [top3]⟩) hP (by simp [Dbvt.twoTree]) (p := ⟨10, 0, 0⟩) (by simp [RSphere.Mem, twoBalls, V3.norm, V3.dot]) (by
      intro P hP
      rw [List.mem_singleton] at hP
      subst hP
      rw [h3]
      norm_num [Plane.gap, fivePlane])
  obtain ⟨⟨l', q3⟩, -⟩ := Dbvt.c11_small_tree_partial _ he (by simp [Dbvt.twoTree]) (pureVisitor fun b _ => cullF binary32 ([fivePlane].map (planeR binary32)) b) ()
  refine ⟨h, _, he, l', q3, ⟨l, q1, List.mem_map.2 ⟨_, q2, rfl⟩⟩, fun k r hk => ?_⟩
  obtain ⟨-, q4⟩ := c123_f32_reported (ms := fun _ => 0) twoBalls_rep he (M := 10) (by norm_num) (by norm_num) (fun v _ => twoBalls_size v) hP q3
  obtain ⟨⟨i, b⟩, q5, -, q6, -, q7⟩ := q4 k r hk
  have q8 : b = true := by
    obtain ⟨p, hp, hg⟩ := q6 fivePlane (by simp)
    have := abs_le.1 (c b p hp)
    cases b
    · rw [h3] at hg
      simp only [Plane.gap, fivePlane] at hg
      norm_num at this hg
      linarith
    · rfl
  subst q8
  refine ⟨i, q5, q7 fun P hPm p hp => ?_⟩
  rw [List.mem_singleton] at hPm
  subst hPm
  have := abs_le.1 (c true p hp)
  rw [h3]
  simp only [Plane.gap, fivePlane]
  norm_num at this ⊢
  linarith
end
end Verif.Scene
