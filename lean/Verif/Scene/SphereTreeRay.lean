import Verif.Scene.SphereRay
import Verif.Scene.SphereCulling
/-!
# C124: ray queries on trees of bounding spheres

The ray test of a sphere rejects every ray that starts beyond the centre, also from inside of the sphere (C37). So a ray that starts inside of the sphere of a branch, beyond its centre, loses everything below the branch, even without
rounding (`c124_false`). What holds, in `f32` and `f64`: if the centres of all spheres that were given to the tree are in front of the origin of the ray, by `5500 n² u M`, the query returns every value whose sphere the ray enters by
more than rounding; and what it returns fits the sphere of the value as in C122.
-/
namespace Verif.Scene
open Verif Geom Primitive Minkowski
open Verif.Dbvt (Rounding SphereF subF mag2F Ops Hist Dbvt Exec Disciplined UpToDate Refitted! discreteVisitor pureVisitor Given F64 binary64 Rep64)
open Verif.Dbvt.B32 (F32 binary32 Rep32)
set_option linter.unusedSectionVars false
noncomputable section
open Classical
variable {F : Type} [LinearOrder F] {R : Rounding F} {u η Ω N M : ℝ}

/-- From the sphere of the value to that of a branch that encloses it up to `δ`. -/
theorem deeper_real {rz rt δ ζ x K W M : ℝ} (rM : rz ≤ M) (hM : 0 < M) (hζ : 0 ≤ ζ) (hζr : ζ ≤ rz) (hK : K ≤ 2 * (rz * ζ)) (h15 : 15 * δ * M ≤ K / 2) (hW : W ≤ 13 / 32 * K) (hrt : rz - δ ≤ rt) (x0 : 0 ≤ x)
    (hx : x ≤ rt + δ - ζ) : x * x + W ≤ rt * rt := by
  have h1 : rz * ζ ≤ M * ζ := mul_le_mul_of_nonneg_right rM hζ
  have h2 : 15 * δ ≤ ζ := by
    by_contra hc
    push Not at hc
    have := mul_lt_mul_of_pos_right hc hM
    linarith
  have h3 : 14 / 15 * rz ≤ rt := by linarith
  have h4 : 14 / 15 * ζ ≤ ζ - δ := by linarith
  have h5 : 14 / 15 * rz * (14 / 15 * ζ) ≤ rt * (ζ - δ) := mul_le_mul h3 h4 (by linarith) (by linarith)
  have h6 : x * x ≤ (rt - (ζ - δ)) * (rt - (ζ - δ)) := mul_self_le_mul_self x0 (by linarith)
  have h7 : 0 ≤ (ζ - δ) * (rt - (ζ - δ)) := mul_nonneg (by linarith) (by linarith)
  have h8 : 0 ≤ rz * ζ := mul_nonneg (by linarith) hζ
  nlinarith

section tree
variable {V S : Type} {bs : V → RSphere} {ms : V → V3 ℝ} {area : SphereF F → S} {lt : S → S → Bool} {sub div : S → S → S} {im : S}

/-- What the tests answer above a value. -/
theorem branch_hit (up : 0 < u) (hΩ : 2 ≤ Ω) {n : ℕ} (hn : 1 ≤ (n : ℝ)) (hT : TreeStd R u η Ω (5 * n * M)) {o d : V3 ℝ} (hr : RayIn R u M o d) {Z t : RSphere} (hZ : InS M M Z) (rt : RpS R t)
    (ht : InS (2 * M) (5 * n * M) t) {δ : ℝ} (hδ : δ ≤ 2500 * (n * n * u * M)) (hin : Inside δ Z t) (hf : 78 * (u * (5 * n * M)) ≤ (t.center - o).dot d) {p : ℝ} (hp : far2 Z.center (o + d * p) + 80000 * (n * n * u * (M * M)) ≤ Z.radius * Z.radius) :
    SphereF.intersectsRay R (toS R t) ⟨toV3 R o, toV3 R d⟩ = true ∧ ∃ r, SphereF.intersectionRay R (toS R t) ⟨toV3 R o, toV3 R d⟩ = some r := by
  obtain ⟨e0, -, -, -, hu0⟩ := hT.eps
  have hM0 : 0 ≤ M := hZ.1.nonneg
  have hMp : 0 < M := by
    rcases hM0.eq_or_lt with h | h
    · have := hT.N0
      rw [← h] at this
      simp at this
    · exact h
  have hnM : M ≤ n * M := by
    have := mul_le_mul_of_nonneg_right hn hM0
    linarith
  have k := c122_volume hT up hΩ rt (ht.mono (by linarith) le_rfl) (o := o) (d := d) ⟨hr.ro, hr.rd, ⟨hr.so.1.trans (by linarith), hr.so.2.1.trans (by linarith), hr.so.2.2.trans (by linarith)⟩, hr.unit⟩
  have hit : SphereF.intersectsRay R (toS R t) ⟨toV3 R o, toV3 R d⟩ = true := by
    refine k.ahead hf ⟨p, ?_⟩
    set q := o + d * p with hq
    have n1 := V3.norm_sq (Z.center - q)
    have n2 := V3.norm_sq (t.center - q)
    have n3 := V3.norm_tri q Z.center t.center
    have n4 := V3.norm_nonneg (Z.center - q)
    have n5 := V3.norm_nonneg (t.center - q)
    have n6 := V3.norm_nonneg (Z.center - t.center)
    have c1 : (q - Z.center).norm = (Z.center - q).norm := by
      rw [← V3.norm_neg]; congr 1; ext <;> simp
    have c2 : (q - t.center).norm = (t.center - q).norm := by
      rw [← V3.norm_neg]; congr 1; ext <;> simp
    rw [c1, c2] at n3
    unfold far2 at hp ⊢
    rw [← n2]
    rw [← n1] at hp
    have hK : 0 ≤ n * n * u * (M * M) := mul_nonneg (mul_nonneg (mul_nonneg (by linarith) (by linarith)) hu0) (mul_nonneg hM0 hM0)
    have hz : (Z.center - q).norm ≤ Z.radius := abs_le_of_mul_self_le hZ.2.1 (by linarith)
    unfold Inside at hin
    have e1 : 1300 * (u * (5 * n * M) * (5 * n * M)) = 32500 * (n * n * u * (M * M)) := by ring
    rw [e1]
    refine deeper_real (rz := Z.radius) (δ := δ) (ζ := Z.radius - (Z.center - q).norm) (K := 80000 * (n * n * u * (M * M))) hZ.2.2 hMp (by linarith) (by linarith) ?_ ?_ (by linarith) (by linarith) n5 (by linarith)
    · have : 0 ≤ (Z.radius - (Z.center - q).norm) * (Z.radius - (Z.center - q).norm) := mul_self_nonneg _
      nlinarith
    · have := mul_le_mul_of_nonneg_right hδ hM0
      linarith
  have := k.agree
  rw [hit] at this
  exact ⟨hit, Option.isSome_iff_exists.1 this⟩

/-- **C124, nothing in front is lost but by rounding.** In a refitted, up-to-date tree of height `n` in which every sphere given to it has coordinates and radius at most `M`, and a centre that is in front of the origin of the ray by
`5500 n² u M`: if the ray has a point whose squared distance from the centre of a stored value is less than the square of its radius by `80000 n² u M²`, `query_ray` returns the value, with the point that the test of its own sphere
gives; and so does a query with the discrete test. -/
theorem c124_found (hb : ∀ v, RpS R (bs v)) (hm : ∀ v, Rep3 R (ms v) ∧ 0 ≤ top3 (ms v)) {h : Hist V} {s : Dbvt V (SphereF F)}
    (he : Exec (ballTreeOps R (fun v => toS R (bs v)) (fun v => toV3 R (ms v)) area lt sub div im) h s)
    (hd : Disciplined (ballTreeOps R (fun v => toS R (bs v)) (fun v => toV3 R (ms v)) area lt sub div im) h)
    (hu : UpToDate (ballTreeOps R (fun v => toS R (bs v)) (fun v => toV3 R (ms v)) area lt sub div im) h) (hr : Refitted! h) {n : ℕ} (hh : s.height = .ok n) (hn : n ≤ 256)
    (hT : TreeStd R u η Ω (5 * n * M)) (up : 0 < u) (hΩ : 2 ≤ Ω) (hsmall : 1500 * (n * n * u) ≤ 1) (hM : ∀ v, Given h v → InS M M (bs v) ∧ top3 (ms v) ≤ M / 2)
    {o d : V3 ℝ} (hray : RayIn R u M o d) (hfront : ∀ v, Given h v → 5500 * (n * n * u * M) ≤ ((bs v).center - o).dot d)
    {e : Nat × V} (hv : e ∈ s.values) {t : ℝ} (ht : far2 (bs e.2).center (o + d * t) + 80000 * (n * n * u * (M * M)) ≤ (bs e.2).radius * (bs e.2).radius) :
    (∃ l p, s.query (ballTreeOps R (fun v => toS R (bs v)) (fun v => toV3 R (ms v)) area lt sub div im) (pureVisitor fun b _ => SphereF.intersectionRay R b ⟨toV3 R o, toV3 R d⟩) () = .ok l ∧ (e.2, p) ∈ l ∧
      SphereF.intersectionRay R (toS R (bs e.2)) ⟨toV3 R o, toV3 R d⟩ = some p) ∧
    ∃ l, s.query (ballTreeOps R (fun v => toS R (bs v)) (fun v => toV3 R (ms v)) area lt sub div im) (discreteVisitor fun b => SphereF.intersectsRay R b ⟨toV3 R o, toV3 R d⟩) () = .ok l ∧ e.2 ∈ l.map Prod.fst := by
  obtain ⟨e0, -, -, -, hu0⟩ := hT.eps
  have hgiven : Given h e.2 := Dbvt.mapOf_given (i := e.1) ((Dbvt.exec_inv _ he).mem.1 hv)
  have hZ := (hM _ hgiven).1
  have hM0 : 0 ≤ M := hZ.1.nonneg
  have hnpos : 1 ≤ (n : ℝ) := by
    have h1 := hT.N0
    rcases Nat.eq_zero_or_pos n with h0 | h0
    · rw [h0] at h1
      simp at h1
    · exact_mod_cast h0
  have hnM : M ≤ n * M := by
    have := mul_le_mul_of_nonneg_right hnpos hM0
    linarith
  set ε := u * (5 * n * M) with hε
  have hεn : ε ≤ n * ε := by
    have := mul_le_mul_of_nonneg_right hnpos e0
    linarith
  have hnε : n * ε = 5 * (n * n * u * M) := by rw [hε]; ring
  have hd2 : d.norm ≤ 2 := by
    have h1 := d.norm_sq
    have h2 := (abs_le.1 hray.unit).2
    have h3 := hT.u'
    exact abs_le_of_mul_self_le (by norm_num) (by linarith)
  have edot : ∀ c : V3 ℝ, (c - o).dot d = d.dot c - d.dot o := fun c => by simp [V3.dot]; ring
  have hown : Inside 0 (bs e.2) (bs e.2) := by
    have : ((bs e.2).center - (bs e.2).center).norm = 0 := by
      rw [V3.norm_eq_zero]
      ext <;> simp
    unfold Inside
    rw [this]
    linarith
  have own := branch_hit up hΩ hnpos hT hray hZ (hb e.2) (hZ.mono (by linarith) (by linarith)) (δ := 0) (by linarith) hown (by linarith [hfront _ hgiven]) ht
  have above : ∀ t', RpS R t' → InS (2 * M) (5 * n * M) t' → Inside (500 * (n * ε) - 440 * ε) (bs e.2) t' → (5500 * (n * n * u * M) + d.dot o) - 1000 * (n * ε) ≤ d.dot t'.center →
      SphereF.intersectsRay R (toS R t') ⟨toV3 R o, toV3 R d⟩ = true ∧ ∃ r, SphereF.intersectionRay R (toS R t') ⟨toV3 R o, toV3 R d⟩ = some r := by
    intro t' rt' ht' hi hfr
    refine branch_hit up hΩ hnpos hT hray hZ rt' ht' (by linarith) hi ?_ ht
    rw [edot]
    linarith
  have fr : ∀ v, Given h v → 5500 * (n * n * u * M) + d.dot o ≤ d.dot (bs v).center := fun v hg => by
    have := hfront v hg
    rw [edot] at this
    linarith
  obtain ⟨o1, p, o2⟩ := own
  constructor
  · obtain ⟨l, h1, h2⟩ := sphere_found hb hm he hd hu hr hh hn hT hsmall hM hd2 fr hv (fun b => SphereF.intersectionRay R b ⟨toV3 R o, toV3 R d⟩) o2 (by
      intro t' rt' ht' hi hfr
      obtain ⟨-, r, a2⟩ := above t' rt' ht' hi hfr
      exact Option.isSome_iff_exists.2 ⟨r, a2⟩)
    exact ⟨l, p, h1, h2, o2⟩
  · obtain ⟨l, h1, h2⟩ := sphere_found hb hm he hd hu hr hh hn hT hsmall hM hd2 fr hv (fun b => if SphereF.intersectsRay R b ⟨toV3 R o, toV3 R d⟩ then some () else none) (r := ()) (if_pos o1) (by
      intro t' rt' ht' hi hfr
      rw [if_pos (above t' rt' ht' hi hfr).1]
      rfl)
    exact ⟨l, h1, List.mem_map.2 ⟨_, h2, rfl⟩⟩

/-- **C124, what is reported.** `query_ray` returns no value twice, and each with the point that the test of its own sphere gives, which is right up to rounding (C122). -/
theorem c124_reported (hb : ∀ v, RpS R (bs v)) {h : Hist V} {s : Dbvt V (SphereF F)}
    (he : Exec (ballTreeOps R (fun v => toS R (bs v)) (fun v => toV3 R (ms v)) area lt sub div im) h s) (hT : TreeStd R u η Ω M) (up : 0 < u) (hΩ : 2 ≤ Ω) (hM : ∀ v, Given h v → InS M M (bs v))
    {o d : V3 ℝ} (hray : RayIn R u M o d) {l : List (Nat × V3 F)}
    (hl : s.queryForIndices (ballTreeOps R (fun v => toS R (bs v)) (fun v => toV3 R (ms v)) area lt sub div im) (pureVisitor fun b _ => SphereF.intersectionRay R b ⟨toV3 R o, toV3 R d⟩) () = .ok l) :
    (l.map Prod.fst).Nodup ∧ ∀ k p, (k, p) ∈ l → ∃ e : Nat × V, s.values[k]? = some e ∧ (∃ t : ℝ, 0 ≤ t ∧ far2 (bs e.2).center (o + d * t) ≤ (bs e.2).radius * (bs e.2).radius + 1300 * (u * M * M)) ∧
      ∃ (t : ℝ) (p' : V3 ℝ), Rep3 R p' ∧ p = toV3 R p' ∧ Sz3 (120 * (u * M)) (p' - (o + d * t)) ∧ |far2 (bs e.2).center (o + d * t) - (bs e.2).radius * (bs e.2).radius| ≤ 1700 * (u * M * M) := by
  obtain ⟨h1, h2⟩ := Dbvt.c08_query_sound _ he _ _ hl
  refine ⟨h1, fun k p hk => ?_⟩
  obtain ⟨e, st, h3, h4⟩ := h2 k p hk
  have hgiven : Given h e.2 := Dbvt.mapOf_given (i := e.1) ((Dbvt.exec_inv _ he).mem.1 (List.mem_of_getElem? h3))
  have h5 : SphereF.intersectionRay R (toS R (bs e.2)) ⟨toV3 R o, toV3 R d⟩ = some p := h4
  have key := c122_volume hT up hΩ (hb e.2) (hM _ hgiven) hray
  obtain ⟨t, p', q1, q2, q3, q4, -⟩ := key.point p h5
  refine ⟨e, h3, key.reported ?_, t, p', q1, q2, q3, q4⟩
  rw [← key.agree, h5]
  rfl
end tree

section formats
variable {V S : Type} {bs : V → RSphere} {ms : V → V3 ℝ} {lt : S → S → Bool} {sub div : S → S → S} {im : S}
/-- **C124 in `f64`**, for scenes of sizes from `2^-400` to `2^400`. (Queries of trees higher than 256 panic, C11.) -/
theorem c124_f64_found {area : SphereF F64 → S} (hb : ∀ v, RpS binary64 (bs v)) (hm : ∀ v, Rep3 binary64 (ms v) ∧ 0 ≤ top3 (ms v)) {h : Hist V} {s : Dbvt V (SphereF F64)}
    (he : Exec (ballTreeOps binary64 (fun v => toS binary64 (bs v)) (fun v => toV3 binary64 (ms v)) area lt sub div im) h s) (hd : Disciplined (ballTreeOps binary64 (fun v => toS binary64 (bs v)) (fun v => toV3 binary64 (ms v)) area lt sub div im) h) (hu : UpToDate (ballTreeOps binary64 (fun v => toS binary64 (bs v)) (fun v => toV3 binary64 (ms v)) area lt sub div im) h) (hr : Refitted! h) {n : ℕ} (hh : s.height = .ok n) (hn : n ≤ 256)
    {M : ℝ} (hlo : (2 : ℝ) ^ (-400 : ℤ) ≤ M) (hhi : M ≤ (2 : ℝ) ^ (400 : ℤ)) (hM : ∀ v, Given h v → InS M M (bs v) ∧ top3 (ms v) ≤ M / 2)
    {o d : V3 ℝ} (hray : RayIn binary64 ((2 : ℝ) ^ (-53 : ℤ)) M o d) (hfront : ∀ v, Given h v → 5500 * (n * n * (2 : ℝ) ^ (-53 : ℤ) * M) ≤ ((bs v).center - o).dot d)
    {e : Nat × V} (hv : e ∈ s.values) {t : ℝ} (ht : far2 (bs e.2).center (o + d * t) + 80000 * (n * n * (2 : ℝ) ^ (-53 : ℤ) * (M * M)) ≤ (bs e.2).radius * (bs e.2).radius) :
    (∃ l p, s.query (ballTreeOps binary64 (fun v => toS binary64 (bs v)) (fun v => toV3 binary64 (ms v)) area lt sub div im) (pureVisitor fun b _ => SphereF.intersectionRay binary64 b ⟨toV3 binary64 o, toV3 binary64 d⟩) () = .ok l ∧ (e.2, p) ∈ l ∧
      SphereF.intersectionRay binary64 (toS binary64 (bs e.2)) ⟨toV3 binary64 o, toV3 binary64 d⟩ = some p) ∧
    ∃ l, s.query (ballTreeOps binary64 (fun v => toS binary64 (bs v)) (fun v => toV3 binary64 (ms v)) area lt sub div im) (discreteVisitor fun b => SphereF.intersectsRay binary64 b ⟨toV3 binary64 o, toV3 binary64 d⟩) () = .ok l ∧ e.2 ∈ l.map Prod.fst := by
  obtain ⟨t1, t2⟩ := tree_size (height_ne_zero he hr hh hv) (by omega) hlo hhi
  refine c124_found hb hm he hd hu hr hh (by omega) (tree64 t1 (t2.trans (zpow2_le (by norm_num)))) (zpow2_pos _) two_le64 ?_ hM hray hfront hv ht
  have h1 : ((n : ℝ) * n) ≤ 256 * 256 := by
    have : (n : ℝ) ≤ 256 := by exact_mod_cast hn
    exact mul_le_mul this this (Nat.cast_nonneg n) (by norm_num)
  have h2 := mul_le_mul_of_nonneg_right h1 (zpow2_pos (-53)).le
  have h3 : (2 : ℝ) ^ (-53 : ℤ) = 1 / 9007199254740992 := by norm_num
  rw [h3] at h2 ⊢
  linarith
/-- **C124 in `f64`**, what is reported. -/
theorem c124_f64_reported {area : SphereF F64 → S} (hb : ∀ v, RpS binary64 (bs v)) {h : Hist V} {s : Dbvt V (SphereF F64)} (he : Exec (ballTreeOps binary64 (fun v => toS binary64 (bs v)) (fun v => toV3 binary64 (ms v)) area lt sub div im) h s)
    {M : ℝ} (hlo : (2 : ℝ) ^ (-400 : ℤ) ≤ M) (hhi : M ≤ (2 : ℝ) ^ (400 : ℤ)) (hM : ∀ v, Given h v → InS M M (bs v))
    {o d : V3 ℝ} (hray : RayIn binary64 ((2 : ℝ) ^ (-53 : ℤ)) M o d) {l : List (Nat × V3 F64)}
    (hl : s.queryForIndices (ballTreeOps binary64 (fun v => toS binary64 (bs v)) (fun v => toV3 binary64 (ms v)) area lt sub div im) (pureVisitor fun b _ => SphereF.intersectionRay binary64 b ⟨toV3 binary64 o, toV3 binary64 d⟩) () = .ok l) :
    (l.map Prod.fst).Nodup ∧ ∀ k p, (k, p) ∈ l → ∃ e : Nat × V, s.values[k]? = some e ∧ (∃ t : ℝ, 0 ≤ t ∧ far2 (bs e.2).center (o + d * t) ≤ (bs e.2).radius * (bs e.2).radius + 1300 * ((2 : ℝ) ^ (-53 : ℤ) * M * M)) ∧
      ∃ (t : ℝ) (p' : V3 ℝ), Rep3 binary64 p' ∧ p = toV3 binary64 p' ∧ Sz3 (120 * ((2 : ℝ) ^ (-53 : ℤ) * M)) (p' - (o + d * t)) ∧ |far2 (bs e.2).center (o + d * t) - (bs e.2).radius * (bs e.2).radius| ≤ 1700 * ((2 : ℝ) ^ (-53 : ℤ) * M * M) :=
  c124_reported hb he (tree64 hlo (hhi.trans (zpow2_le (by norm_num)))) (zpow2_pos _) two_le64 hM hray hl
/-- **C124 in `f32`**, for scenes of sizes from `2^-36` to `2^40` and heights up to 100. -/
theorem c124_f32_found {area : SphereF F32 → S} (hb : ∀ v, RpS binary32 (bs v)) (hm : ∀ v, Rep3 binary32 (ms v) ∧ 0 ≤ top3 (ms v)) {h : Hist V} {s : Dbvt V (SphereF F32)}
    (he : Exec (ballTreeOps binary32 (fun v => toS binary32 (bs v)) (fun v => toV3 binary32 (ms v)) area lt sub div im) h s) (hd : Disciplined (ballTreeOps binary32 (fun v => toS binary32 (bs v)) (fun v => toV3 binary32 (ms v)) area lt sub div im) h) (hu : UpToDate (ballTreeOps binary32 (fun v => toS binary32 (bs v)) (fun v => toV3 binary32 (ms v)) area lt sub div im) h) (hr : Refitted! h) {n : ℕ} (hh : s.height = .ok n) (hn : n ≤ 100)
    {M : ℝ} (hlo : (2 : ℝ) ^ (-36 : ℤ) ≤ M) (hhi : M ≤ (2 : ℝ) ^ (40 : ℤ)) (hM : ∀ v, Given h v → InS M M (bs v) ∧ top3 (ms v) ≤ M / 2)
    {o d : V3 ℝ} (hray : RayIn binary32 ((2 : ℝ) ^ (-24 : ℤ)) M o d) (hfront : ∀ v, Given h v → 5500 * (n * n * (2 : ℝ) ^ (-24 : ℤ) * M) ≤ ((bs v).center - o).dot d)
    {e : Nat × V} (hv : e ∈ s.values) {t : ℝ} (ht : far2 (bs e.2).center (o + d * t) + 80000 * (n * n * (2 : ℝ) ^ (-24 : ℤ) * (M * M)) ≤ (bs e.2).radius * (bs e.2).radius) :
    (∃ l p, s.query (ballTreeOps binary32 (fun v => toS binary32 (bs v)) (fun v => toV3 binary32 (ms v)) area lt sub div im) (pureVisitor fun b _ => SphereF.intersectionRay binary32 b ⟨toV3 binary32 o, toV3 binary32 d⟩) () = .ok l ∧ (e.2, p) ∈ l ∧
      SphereF.intersectionRay binary32 (toS binary32 (bs e.2)) ⟨toV3 binary32 o, toV3 binary32 d⟩ = some p) ∧
    ∃ l, s.query (ballTreeOps binary32 (fun v => toS binary32 (bs v)) (fun v => toV3 binary32 (ms v)) area lt sub div im) (discreteVisitor fun b => SphereF.intersectsRay binary32 b ⟨toV3 binary32 o, toV3 binary32 d⟩) () = .ok l ∧ e.2 ∈ l.map Prod.fst := by
  obtain ⟨t1, t2⟩ := tree_size (height_ne_zero he hr hh hv) (by omega) hlo hhi
  refine c124_found hb hm he hd hu hr hh (by omega) (tree32 t1 (t2.trans (zpow2_le (by norm_num)))) (zpow2_pos _) (by norm_num) ?_ hM hray hfront hv ht
  have h1 : ((n : ℝ) * n) ≤ 100 * 100 := by
    have : (n : ℝ) ≤ 100 := by exact_mod_cast hn
    exact mul_le_mul this this (Nat.cast_nonneg n) (by norm_num)
  have h2 := mul_le_mul_of_nonneg_right h1 (zpow2_pos (-24)).le
  have h3 : (2 : ℝ) ^ (-24 : ℤ) = 1 / 16777216 := by norm_num
  rw [h3] at h2 ⊢
  linarith
/-- **C124 in `f32`**, what is reported. -/
theorem c124_f32_reported {area : SphereF F32 → S} (hb : ∀ v, RpS binary32 (bs v)) {h : Hist V} {s : Dbvt V (SphereF F32)} (he : Exec (ballTreeOps binary32 (fun v => toS binary32 (bs v)) (fun v => toV3 binary32 (ms v)) area lt sub div im) h s)
    {M : ℝ} (hlo : (2 : ℝ) ^ (-36 : ℤ) ≤ M) (hhi : M ≤ (2 : ℝ) ^ (40 : ℤ)) (hM : ∀ v, Given h v → InS M M (bs v))
    {o d : V3 ℝ} (hray : RayIn binary32 ((2 : ℝ) ^ (-24 : ℤ)) M o d) {l : List (Nat × V3 F32)}
    (hl : s.queryForIndices (ballTreeOps binary32 (fun v => toS binary32 (bs v)) (fun v => toV3 binary32 (ms v)) area lt sub div im) (pureVisitor fun b _ => SphereF.intersectionRay binary32 b ⟨toV3 binary32 o, toV3 binary32 d⟩) () = .ok l) :
    (l.map Prod.fst).Nodup ∧ ∀ k p, (k, p) ∈ l → ∃ e : Nat × V, s.values[k]? = some e ∧ (∃ t : ℝ, 0 ≤ t ∧ far2 (bs e.2).center (o + d * t) ≤ (bs e.2).radius * (bs e.2).radius + 1300 * ((2 : ℝ) ^ (-24 : ℤ) * M * M)) ∧
      ∃ (t : ℝ) (p' : V3 ℝ), Rep3 binary32 p' ∧ p = toV3 binary32 p' ∧ Sz3 (120 * ((2 : ℝ) ^ (-24 : ℤ) * M)) (p' - (o + d * t)) ∧ |far2 (bs e.2).center (o + d * t) - (bs e.2).radius * (bs e.2).radius| ≤ 1700 * ((2 : ℝ) ^ (-24 : ℤ) * M * M) :=
  c124_reported hb he (tree32 hlo (hhi.trans (zpow2_le (by norm_num)))) (zpow2_pos _) (by norm_num) hM hray hl
end formats

/-! ## Their hypotheses -/
/-- Two spheres of radius 4, at 0 and at 10 on the first axis. -/
def bigBalls (b : Bool) : RSphere := ⟨⟨if b then 10 else 0, 0, 0⟩, 4⟩
theorem bigBalls_rep (b : Bool) : RpS binary32 (bigBalls b) := by
  have h10 : Rep binary32 10 := by simpa using rep32_int 10 (by norm_num)
  have h4 : Rep binary32 4 := by simpa using rep32_int 4 (by norm_num)
  cases b
  · exact ⟨⟨rep_zero, rep_zero, rep_zero⟩, h4⟩
  · exact ⟨⟨h10, rep_zero, rep_zero⟩, h4⟩
theorem bigBalls_size (b : Bool) : InS 10 10 (bigBalls b) := by
  cases b <;> norm_num [InS, bigBalls, Sz3]
/-- In `f32`, the ray from `(-10, 0, 0)` along the first axis finds both of two spheres of radius 4, at 0 and at 10. -/
example {S : Type} (area : SphereF F32 → S) (lt : S → S → Bool) (sub div : S → S → S) (im : S) :
    ∃ h s, Exec (ballTreeOps binary32 (fun v => toS binary32 (bigBalls v)) (fun _ => toV3 binary32 0) area lt sub div im) h s ∧
      ∀ b : Bool, ∃ l p, s.query (ballTreeOps binary32 (fun v => toS binary32 (bigBalls v)) (fun _ => toV3 binary32 0) area lt sub div im)
        (pureVisitor fun b _ => SphereF.intersectionRay binary32 b ⟨toV3 binary32 ⟨-10, 0, 0⟩, toV3 binary32 ⟨1, 0, 0⟩⟩) () = .ok l ∧ (b, p) ∈ l := by
  obtain ⟨h, hr⟩ := Dbvt.twoTree_run (ballTreeOps binary32 (fun v => toS binary32 (bigBalls v)) (fun _ => toV3 binary32 0) area lt sub div im) false true (fun _ => 0)
  obtain ⟨he, hd, hu, hf⟩ := Dbvt.run_inserts hr
  refine ⟨h, _, he, fun b => ?_⟩
  have h3 : (2 : ℝ) ^ (-24 : ℤ) = 1 / 16777216 := by norm_num
  have a : Rep binary32 (-10) := by simpa using rep32_int (-10) (by norm_num)
  have hray : RayIn binary32 ((2 : ℝ) ^ (-24 : ℤ)) 10 ⟨-10, 0, 0⟩ ⟨1, 0, 0⟩ := by
    refine ⟨⟨a, rep_zero, rep_zero⟩, ⟨rep_one, rep_zero, rep_zero⟩, ⟨?_, ?_, ?_⟩, ?_⟩
    · show |(-10 : ℝ)| ≤ 10; norm_num
    · show |(0 : ℝ)| ≤ 10; norm_num
    · show |(0 : ℝ)| ≤ 10; norm_num
    · norm_num [V3.dot]
  obtain ⟨⟨l, p, q1, q2, -⟩, -⟩ := c124_f32_found (bs := bigBalls) (ms := fun _ => 0) (n := 2) (M := 10) (e := (if b then 3 else 1, b)) (t := if b then 20 else 10) bigBalls_rep
    (fun _ => ⟨⟨rep_zero, rep_zero, rep_zero⟩, by simp [top3]⟩) he hd hu hf rfl (by norm_num) (by norm_num) (by norm_num) (fun v _ => ⟨bigBalls_size v, by norm_num [top3]⟩) hray
    (fun v _ => by rw [h3]; cases v <;> norm_num [bigBalls, V3.dot]) (by cases b <;> simp [Dbvt.twoTree]) (by rw [h3]; cases b <;> norm_num [bigBalls, far2, V3.dot])
  exact ⟨l, p, q1, q2⟩

/-! ## Without the condition on the centres -/
theorem two_union (hi : ∀ m : ℤ, |m| ≤ 100 → Rep R (m : ℝ)) : SphereF.union R (toS R (twoBalls false)) (toS R (twoBalls true)) = toS R ⟨⟨5, 0, 0⟩, 6⟩ := by
  have r0 : Rep R 0 := rep_zero
  have r1 : Rep R 1 := rep_one
  have r2 : Rep R 2 := by simpa using hi 2 (by norm_num)
  have r5 : Rep R 5 := by simpa using hi 5 (by norm_num)
  have r6 : Rep R 6 := by simpa using hi 6 (by norm_num)
  have r10 : Rep R 10 := by simpa using hi 10 (by norm_num)
  have rn10 : Rep R (-10) := by simpa using hi (-10) (by norm_num)
  have r11 : Rep R 11 := by simpa using hi 11 (by norm_num)
  have r12 : Rep R 12 := by simpa using hi 12 (by norm_num)
  have r50 : Rep R 50 := by simpa using hi 50 (by norm_num)
  have r100 : Rep R 100 := by simpa using hi 100 (by norm_num)
  have z : (R.two : F) = toF R 2 := by
    have e1 : (R.one : F) = toF R 1 := toF_one.symm
    unfold Rounding.two
    rw [e1, radd r1 r1, show (1 : ℝ) + 1 = 2 by norm_num]
  have sq : Real.sqrt 100 = 10 := by
    rw [show (100 : ℝ) = 10 * 10 by norm_num, Real.sqrt_mul_self (by norm_num)]
  have s1 : subF R (toV3 R ⟨10, 0, 0⟩) (toV3 R ⟨0, 0, 0⟩) = toV3 R ⟨10, 0, 0⟩ := by
    show (⟨R.sub (toF R 10) (toF R 0), R.sub (toF R 0) (toF R 0), R.sub (toF R 0) (toF R 0)⟩ : V3 F) = _
    rw [rsub r10 r0, rsub r0 r0, sub_zero, sub_zero]
    rfl
  have s2 : subF R (toV3 R ⟨0, 0, 0⟩) (toV3 R ⟨10, 0, 0⟩) = toV3 R ⟨-10, 0, 0⟩ := by
    show (⟨R.sub (toF R 0) (toF R 10), R.sub (toF R 0) (toF R 0), R.sub (toF R 0) (toF R 0)⟩ : V3 F) = _
    rw [rsub r0 r10, rsub r0 r0, sub_zero, zero_sub]
    rfl
  have m1 : R.sqrt (mag2F R (toV3 R ⟨10, 0, 0⟩)) = toF R 10 := by
    show R.sqrt (R.add (R.add (R.mul (toF R 10) (toF R 10)) (R.mul (toF R 0) (toF R 0))) (R.mul (toF R 0) (toF R 0))) = _
    rw [rmul r10 r10, rmul r0 r0, show (10 : ℝ) * 10 = 100 by norm_num, mul_zero, radd r100 r0, add_zero, radd r100 r0, add_zero, rsqrt r100, sq]
  have m2 : R.sqrt (mag2F R (toV3 R ⟨-10, 0, 0⟩)) = toF R 10 := by
    show R.sqrt (R.add (R.add (R.mul (toF R (-10)) (toF R (-10))) (R.mul (toF R 0) (toF R 0))) (R.mul (toF R 0) (toF R 0))) = _
    rw [rmul rn10 rn10, rmul r0 r0, show (-10 : ℝ) * -10 = 100 by norm_num, mul_zero, radd r100 r0, add_zero, radd r100 r0, add_zero, rsqrt r100, sq]
  have c : ¬ (R.add (toF R 10) (toF R 1) : F) ≤ toF R 1 := fun hc => by
    rw [radd r10 r1] at hc
    have := (toF_le (R := R) (x := 10 + 1) (by norm_num; exact r11) r1).1 hc
    norm_num at this
  have c1 : SphereF.contains R (toS R (twoBalls false)) (toS R (twoBalls true)) = false := by
    have : ¬ R.add (R.sqrt (mag2F R (subF R (toV3 R ⟨10, 0, 0⟩) (toV3 R ⟨0, 0, 0⟩)))) (toF R 1) ≤ toF R 1 := by
      rw [s1, m1]
      exact c
    exact decide_eq_false this
  have c2 : SphereF.contains R (toS R (twoBalls true)) (toS R (twoBalls false)) = false := by
    have : ¬ R.add (R.sqrt (mag2F R (subF R (toV3 R ⟨0, 0, 0⟩) (toV3 R ⟨10, 0, 0⟩)))) (toF R 1) ≤ toF R 1 := by
      rw [s2, m2]
      exact c
    exact decide_eq_false this
  unfold SphereF.union
  rw [c1, c2, if_neg (by simp), if_neg (by simp)]
  show (⟨⟨R.add (toF R 0) (R.div (R.mul (subF R (toV3 R ⟨10, 0, 0⟩) (toV3 R ⟨0, 0, 0⟩)).x (R.sub (R.div (R.add (R.add (toF R 1) (toF R 1)) (R.sqrt (mag2F R (subF R (toV3 R ⟨10, 0, 0⟩) (toV3 R ⟨0, 0, 0⟩))))) R.two) (toF R 1))) (R.sqrt (mag2F R (subF R (toV3 R ⟨10, 0, 0⟩) (toV3 R ⟨0, 0, 0⟩))))),
      R.add (toF R 0) (R.div (R.mul (subF R (toV3 R ⟨10, 0, 0⟩) (toV3 R ⟨0, 0, 0⟩)).y (R.sub (R.div (R.add (R.add (toF R 1) (toF R 1)) (R.sqrt (mag2F R (subF R (toV3 R ⟨10, 0, 0⟩) (toV3 R ⟨0, 0, 0⟩))))) R.two) (toF R 1))) (R.sqrt (mag2F R (subF R (toV3 R ⟨10, 0, 0⟩) (toV3 R ⟨0, 0, 0⟩))))),
      R.add (toF R 0) (R.div (R.mul (subF R (toV3 R ⟨10, 0, 0⟩) (toV3 R ⟨0, 0, 0⟩)).z (R.sub (R.div (R.add (R.add (toF R 1) (toF R 1)) (R.sqrt (mag2F R (subF R (toV3 R ⟨10, 0, 0⟩) (toV3 R ⟨0, 0, 0⟩))))) R.two) (toF R 1))) (R.sqrt (mag2F R (subF R (toV3 R ⟨10, 0, 0⟩) (toV3 R ⟨0, 0, 0⟩)))))⟩,
      R.div (R.add (R.add (toF R 1) (toF R 1)) (R.sqrt (mag2F R (subF R (toV3 R ⟨10, 0, 0⟩) (toV3 R ⟨0, 0, 0⟩))))) R.two⟩ : SphereF F) = _
  rw [s1, m1, z, radd r1 r1, show (1 : ℝ) + 1 = 2 by norm_num, radd r2 r10, show (2 : ℝ) + 10 = 12 by norm_num, rdiv r12 r2, show (12 : ℝ) / 2 = 6 by norm_num, rsub r6 r1, show (6 : ℝ) - 1 = 5 by norm_num]
  show (⟨⟨R.add (toF R 0) (R.div (R.mul (toF R 10) (toF R 5)) (toF R 10)), R.add (toF R 0) (R.div (R.mul (toF R 0) (toF R 5)) (toF R 10)), R.add (toF R 0) (R.div (R.mul (toF R 0) (toF R 5)) (toF R 10))⟩, toF R 6⟩ : SphereF F) = _
  rw [rmul r10 r5, show (10 : ℝ) * 5 = 50 by norm_num, rdiv r50 r10, show (50 : ℝ) / 10 = 5 by norm_num, radd r0 r5, zero_add, rmul r0 r5, zero_mul, rdiv r0 r10, zero_div, radd r0 r0, zero_add]
  rfl

/-- The ray from `(8, 0, 0)` along the first axis. -/
theorem behind_tests (hi : ∀ m : ℤ, |m| ≤ 100 → Rep R (m : ℝ)) : SphereF.intersectionRay R (toS R ⟨⟨5, 0, 0⟩, 6⟩) ⟨toV3 R ⟨8, 0, 0⟩, toV3 R ⟨1, 0, 0⟩⟩ = none ∧
    SphereF.intersectionRay R (toS R (twoBalls true)) ⟨toV3 R ⟨8, 0, 0⟩, toV3 R ⟨1, 0, 0⟩⟩ = some (toV3 R ⟨9, 0, 0⟩) := by
  have r0 : Rep R 0 := rep_zero
  have r1 : Rep R 1 := rep_one
  have r2 : Rep R 2 := by simpa using hi 2 (by norm_num)
  have rn3 : Rep R (-3) := by simpa using hi (-3) (by norm_num)
  have r4 : Rep R 4 := by simpa using hi 4 (by norm_num)
  have r5 : Rep R 5 := by simpa using hi 5 (by norm_num)
  have r8 : Rep R 8 := by simpa using hi 8 (by norm_num)
  have r10 : Rep R 10 := by simpa using hi 10 (by norm_num)
  have z : (R.zero : F) = toF R 0 := (show toF R 0 = R.zero from toF_zero).symm
  have dot1 : ∀ {a b c : ℝ}, Rep R a → Rep R b → Rep R c → a * b = c → dotF R (toV3 R ⟨a, 0, 0⟩) (toV3 R ⟨b, 0, 0⟩) = toF R c := by
    intro a b c ra rb rc e
    show R.add (R.add (R.mul (toF R a) (toF R b)) (R.mul (toF R 0) (toF R 0))) (R.mul (toF R 0) (toF R 0)) = _
    rw [rmul ra rb, rmul r0 r0, e, mul_zero, radd rc r0, add_zero, radd rc r0, add_zero]
  have s1 : subF R (toV3 R ⟨5, 0, 0⟩) (toV3 R ⟨8, 0, 0⟩) = toV3 R ⟨-3, 0, 0⟩ := by
    show (⟨R.sub (toF R 5) (toF R 8), R.sub (toF R 0) (toF R 0), R.sub (toF R 0) (toF R 0)⟩ : V3 F) = _
    rw [rsub r5 r8, rsub r0 r0, sub_zero, show (5 : ℝ) - 8 = -3 by norm_num]
    rfl
  have s2 : subF R (toV3 R ⟨10, 0, 0⟩) (toV3 R ⟨8, 0, 0⟩) = toV3 R ⟨2, 0, 0⟩ := by
    show (⟨R.sub (toF R 10) (toF R 8), R.sub (toF R 0) (toF R 0), R.sub (toF R 0) (toF R 0)⟩ : V3 F) = _
    rw [rsub r10 r8, rsub r0 r0, sub_zero, show (10 : ℝ) - 8 = 2 by norm_num]
    rfl
  constructor
  · refine (congrArg (fun l => pointTail R l (toF R 6) (toV3 R ⟨8, 0, 0⟩) (toV3 R ⟨1, 0, 0⟩)) s1).trans ?_
    unfold pointTail
    simp only [dot1 rn3 r1 rn3 (by norm_num), z]
    exact if_pos ((toF_lt rn3 r0).2 (by norm_num))
  · refine (congrArg (fun l => pointTail R l (toF R 1) (toV3 R ⟨8, 0, 0⟩) (toV3 R ⟨1, 0, 0⟩)) s2).trans ?_
    unfold pointTail
    simp only [dot1 r2 r1 r2 (by norm_num), dot1 r2 r2 r4 (by norm_num), z, rmul r2 r2, rmul r1 r1, mul_one, show (2 : ℝ) * 2 = 4 by norm_num, rsub r4 r4, sub_self, rsub r1 r0, sub_zero, rsqrt r1, Real.sqrt_one, rsub r2 r1, show (2 : ℝ) - 1 = 1 by norm_num]
    have n1 : ¬ @LT.lt F _ (toF R 2) (toF R 0) := fun hc => by
      have : (2 : ℝ) < 0 := (toF_lt r2 r0).1 hc
      norm_num at this
    have n2 : ¬ @GT.gt F _ (toF R 0) (toF R 1) := fun hc => by
      have : (1 : ℝ) < 0 := (toF_lt r1 r0).1 hc
      norm_num at this
    rw [if_neg n1, if_neg n2]
    show some (⟨R.add (toF R 8) (R.mul (toF R 1) (toF R 1)), R.add (toF R 0) (R.mul (toF R 0) (toF R 1)), R.add (toF R 0) (R.mul (toF R 0) (toF R 1))⟩ : V3 F) = _
    rw [rmul r1 r1, mul_one, radd r8 r1, show (8 : ℝ) + 1 = 9 by norm_num, rmul r0 r1, zero_mul, radd r0 r0, add_zero]
    rfl

/-- **C124 without the condition on the centres is false**, in every number format with the whole numbers up to 100 (also without rounding): a tree holds a sphere of radius 1 at 0 and one at 10; the ray from `(8, 0, 0)` along the first
axis enters the second one at `(9, 0, 0)`, which the test of this sphere reports, and `query_ray` returns nothing. -/
theorem c124_false (hi : ∀ m : ℤ, |m| ≤ 100 → Rep R (m : ℝ)) {S : Type} (area : SphereF F → S) (lt : S → S → Bool) (sub div : S → S → S) (im : S) :
    ∃ h s, Exec (ballTreeOps R (fun v => toS R (twoBalls v)) (fun _ => toV3 R 0) area lt sub div im) h s ∧ Disciplined (ballTreeOps R (fun v => toS R (twoBalls v)) (fun _ => toV3 R 0) area lt sub div im) h ∧
      UpToDate (ballTreeOps R (fun v => toS R (twoBalls v)) (fun _ => toV3 R 0) area lt sub div im) h ∧ Refitted! h ∧ true ∈ s.values.map Prod.snd ∧
      SphereF.intersectionRay R (toS R (twoBalls true)) ⟨toV3 R ⟨8, 0, 0⟩, toV3 R ⟨1, 0, 0⟩⟩ = some (toV3 R ⟨9, 0, 0⟩) ∧
      s.query (ballTreeOps R (fun v => toS R (twoBalls v)) (fun _ => toV3 R 0) area lt sub div im) (pureVisitor fun b _ => SphereF.intersectionRay R b ⟨toV3 R ⟨8, 0, 0⟩, toV3 R ⟨1, 0, 0⟩⟩) () = .ok [] := by
  obtain ⟨h, hr⟩ := Dbvt.twoTree_run (ballTreeOps R (fun v => toS R (twoBalls v)) (fun _ => toV3 R 0) area lt sub div im) false true (fun _ => 0)
  obtain ⟨he, hd, hu, hf⟩ := Dbvt.run_inserts hr
  obtain ⟨t1, t2⟩ := behind_tests hi
  refine ⟨h, _, he, hd, hu, hf, by simp [Dbvt.twoTree], t2, ?_⟩
  have fat : ∀ b, withMarginF R (toS R (twoBalls b)) (toV3 R 0) = toS R (twoBalls b) := by
    intro b
    have e : R.add (toF R (twoBalls b).radius) (max (max (toV3 R 0).x (toV3 R 0).y) (toV3 R 0).z) = toF R 1 := by
      have em' : ∀ x : F, max (max x x) x = x := fun x => by rw [max_self, max_self]
      have em : @max F _ (@max F _ (toF R 0) (toF R 0)) (toF R 0) = toF R 0 := em' (toF R 0)
      have e2 : R.add (toF R 1) (toF R 0) = toF R 1 := by rw [radd rep_one rep_zero, add_zero]
      exact (congrArg (R.add (toF R 1)) em).trans e2
    exact congrArg (SphereF.mk (toV3 R (twoBalls b).center)) e
  set O := ballTreeOps R (fun v => toS R (twoBalls v)) (fun _ => toV3 R 0) area lt sub div im with hO
  have hv : SphereF.intersectionRay R (O.union (O.fat false) (O.fat true)) ⟨toV3 R ⟨8, 0, 0⟩, toV3 R ⟨1, 0, 0⟩⟩ = none := by
    have e : O.union (O.fat false) (O.fat true) = toS R ⟨⟨5, 0, 0⟩, 6⟩ := by
      show SphereF.union R (withMarginF R (toS R (twoBalls false)) (toV3 R 0)) (withMarginF R (toS R (twoBalls true)) (toV3 R 0)) = _
      rw [fat, fat, two_union hi]
    rw [e, t1]
  simp [Dbvt.Dbvt.query, Dbvt.Dbvt.queryForIndices, Dbvt.queryLoop, Dbvt.twoTree, Dbvt.nodeAt, Res.ofOption, hv, Dbvt.mapRes, pureVisitor]
/-- In `f32`, in `f64` and without rounding. -/
theorem c124_false_formats : (∀ m : ℤ, |m| ≤ 100 → Rep binary32 (m : ℝ)) ∧ (∀ m : ℤ, |m| ≤ 100 → Rep binary64 (m : ℝ)) ∧ ∀ m : ℤ, |m| ≤ 100 → Rep Dbvt.exactR (m : ℝ) :=
  ⟨fun m h => rep32_int m (by omega), fun m h => rep_of_rep64 ⟨m, 0, by omega, by norm_num, by norm_num, by simp⟩, fun m _ => rfl⟩
end
end Verif.Scene
