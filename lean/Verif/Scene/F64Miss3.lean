import Verif.Scene.F64Place3
/-!
# The 3D GJK in rounded arithmetic: a miss is right up to rounding, or the search direction was zero (C114)

The 3D code loses its search direction on degenerate simplices: it asks for a support point in the direction zero, and the answer, whose product with zero is zero, ends the run with a miss (`c52_3d_false`,
and in `f64` `c105_f64_miss`). That is the only way to miss shapes that overlap by more than rounding. A run that asks for the direction zero is recognised by a support function that panics there.
-/
namespace Verif.Scene
open Verif Geom Primitive Minkowski
open Verif.Dbvt (Rounding F64 binary64 Rep64)
set_option linter.unusedSectionVars false
noncomputable section
open Classical

/-- Specification: the support function that panics when it is asked for the direction zero. -/
def noZero {V : Type} [Zero V] (f : V → Res V) (d : V) : Res V := if d = 0 then .panic else f d

/-- The loop, with an invariant, next to the loop with a support function that panics on the direction zero. -/
theorem loop_noZero {V K : Type} [Neg V] [Sub V] [Zero V] [DecidableEq V] [Zero K] [LinearOrder K] [Inner V K] {reduce : List (SP V) → V → Bool × List (SP V) × V} {left right : V → Res V}
    (Inv : List (SP V) → V → Prop) (Miss : Prop) (Hit : List (SP V) → Prop)
    (step : ∀ s d, Inv s d → ∃ a, SP.fromMinkowski left right d = .ok a ∧ (d ≠ 0 → Inner.dot a.v d ≤ 0 → Miss) ∧
      (0 < Inner.dot a.v d → ((reduce (s ++ [a]) d).1 = true → Hit (reduce (s ++ [a]) d).2.1) ∧
        ((reduce (s ++ [a]) d).1 = false → Inv (reduce (s ++ [a]) d).2.1 (reduce (s ++ [a]) d).2.2))) :
    ∀ n s d, Inv s d → ∃ o, gjkLoop reduce left right n s d = .ok o ∧ (o = .miss → Miss ∨ gjkLoop reduce (noZero left) right n s d = .panic) ∧ (∀ t, o = .hit t → Hit t)
  | 0, s, d, _ => ⟨.exhausted, rfl, nofun, nofun⟩
  | n + 1, s, d, h => by
    obtain ⟨a, ha, h1, h2⟩ := step s d h
    by_cases hz : d = 0
    · -- the direction zero
      have e : gjkLoop reduce (noZero left) right (n + 1) s d = .panic := by
        have : SP.fromMinkowski (noZero left) right d = .panic := by
          unfold SP.fromMinkowski noZero
          rw [if_pos hz]
          rfl
        simp only [gjkLoop, this, Res.bind_panic]
      simp only [gjkLoop, ha, Res.bind_ok]
      by_cases hd : Inner.dot a.v d ≤ 0
      · refine ⟨.miss, by simp [hd], fun _ => Or.inr ?_, nofun⟩
        simpa only [gjkLoop] using e
      · obtain ⟨g1, g2⟩ := h2 (not_le.1 hd)
        cases hr : (reduce (s ++ [a]) d).1
        · obtain ⟨o, ho, h3, h4⟩ := loop_noZero Inv Miss Hit step n _ _ (g2 hr)
          refine ⟨o, by simpa [hd] using ho, fun _ => Or.inr ?_, h4⟩
          simpa only [gjkLoop] using e
        · refine ⟨.hit (reduce (s ++ [a]) d).2.1, by simp [hd], nofun, ?_⟩
          rintro t ⟨⟩
          exact g1 hr
    · have ha' : SP.fromMinkowski (noZero left) right d = .ok a := by
        rw [← ha]
        unfold SP.fromMinkowski noZero
        rw [if_neg hz]
      simp only [gjkLoop, ha, ha', Res.bind_ok]
      by_cases hd : Inner.dot a.v d ≤ 0
      · exact ⟨.miss, by simp [hd], fun _ => Or.inl (h1 hz hd), nofun⟩
      · obtain ⟨g1, g2⟩ := h2 (not_le.1 hd)
        cases hr : (reduce (s ++ [a]) d).1
        · obtain ⟨o, ho, h3, h4⟩ := loop_noZero Inv Miss Hit step n _ _ (g2 hr)
          exact ⟨o, by simpa [hd] using ho, by simpa [hd] using h3, h4⟩
        · refine ⟨.hit (reduce (s ++ [a]) d).2.1, by simp [hd], nofun, ?_⟩
          rintro t ⟨⟩
          exact g1 hr

variable {F : Type} [LinearOrder F] {R : Rounding F} {u η Ω M N A B : ℝ} {a b c d v : V3 ℝ}

/-- The largest of the components. -/
def size3 (d : V3 ℝ) : ℝ := max |d.x| (max |d.y| |d.z|)
theorem sz_size3 (d : V3 ℝ) : Sz3 (size3 d) d := ⟨le_max_left _ _, (le_max_left _ _).trans (le_max_right _ _), (le_max_right _ _).trans (le_max_right _ _)⟩
theorem size3_le (h : Sz3 A d) : size3 d ≤ A := max_le h.1 (max_le h.2.1 h.2.2)
theorem size3_nonneg (d : V3 ℝ) : 0 ≤ size3 d := (abs_nonneg _).trans (le_max_left _ _)

/-- Specification: in some direction the shapes overlap by at most `δ` (in the norm that is the largest component). -/
def NearlySeparated3 (δ : ℝ) (L Rr : V3 ℝ → Prop) : Prop := ∃ d : V3 ℝ, d ≠ 0 ∧ ∀ p q, L p → Rr q → (p - q).dot d ≤ δ * size3 d
/-- Specification: the shapes overlap by `r` in every direction. -/
def Deep3 (L Rr : V3 ℝ → Prop) (r : ℝ) : Prop := ∀ t : V3 ℝ, t.norm ≤ r → ∃ x y, L x ∧ Rr y ∧ x - y = t
/-- Shapes that overlap in every direction by more are not nearly separated. -/
theorem deep3_not_nearly {L Rr : V3 ℝ → Prop} {r δ : ℝ} (hr : δ < r) (hδ : 0 ≤ δ) (h : Deep3 L Rr r) : ¬ NearlySeparated3 δ L Rr := by
  rintro ⟨d, hd, hs⟩
  have hn : 0 < d.norm := V3.norm_pos hd
  have h0 : 0 < r := hδ.trans_lt hr
  obtain ⟨x, y, hx, hy, e⟩ := h (d * (r / d.norm)) (by
    rw [V3.norm_smul, abs_of_pos (div_pos h0 hn)]
    exact le_of_eq (by field_simp))
  have h1 := hs x y hx hy
  rw [e] at h1
  have h2 : (d * (r / d.norm)).dot d = r / d.norm * d.dot d := by simp only [V3.dot, V3.mul_x, V3.mul_y, V3.mul_z]; ring
  have h3 : d.dot d = d.norm * d.norm := by
    unfold V3.norm
    rw [Real.mul_self_sqrt]
    exact (dot_self_pos3 hd).le
  have h4 : size3 d ≤ d.norm := by
    have hx : |d.x| ≤ d.norm := Real.abs_le_sqrt (by simp only [V3.dot]; nlinarith [mul_self_nonneg d.y, mul_self_nonneg d.z])
    have hy : |d.y| ≤ d.norm := Real.abs_le_sqrt (by simp only [V3.dot]; nlinarith [mul_self_nonneg d.x, mul_self_nonneg d.z])
    have hz : |d.z| ≤ d.norm := Real.abs_le_sqrt (by simp only [V3.dot]; nlinarith [mul_self_nonneg d.x, mul_self_nonneg d.y])
    exact size3_le ⟨hx, hy, hz⟩
  rw [h2, h3, show r / d.norm * (d.norm * d.norm) = r * d.norm by field_simp] at h1
  have h5 : δ * size3 d ≤ δ * d.norm := mul_le_mul_of_nonneg_left h4 hδ
  have h6 : δ * d.norm < r * d.norm := mul_lt_mul_of_pos_right hr hn
  linarith

/-! ## Sizes -/

variable (R) in
/-- The vector is finite, with components of at most `C`. -/
def BdV (C : ℝ) (v : V3 (Fl R)) : Prop := ∃ v', v = toV3 R v' ∧ Rep3 R v' ∧ Sz3 C v'
variable {p q r : V3 (Fl R)}
theorem BdV.mono (h : BdV R A p) (hAB : A ≤ B) : BdV R B p := by
  obtain ⟨v, e, r, s⟩ := h
  exact ⟨v, e, r, s.mono hAB⟩
theorem BdV.neg (h : Std R u η Ω) (hp : BdV R A p) (hA : A ≤ Ω) : BdV R A (-p) := by
  obtain ⟨v, rfl, r, s⟩ := hp
  exact ⟨-v, toV3_neg r, rep3_neg h r s hA, s.neg⟩
theorem fl_le (h : Std R u η Ω) {x X : ℝ} (hx : |x| ≤ X) (hX : X ≤ Ω) (h1 : 1 ≤ X) : ∃ y, Rep R y ∧ toF R x = toF R y ∧ |y| ≤ 2 * X := by
  obtain ⟨y, r, e, d⟩ := h.fl hx hX
  refine ⟨y, r, e, ?_⟩
  have : u * X ≤ 1 / 16 * X := mul_le_mul_of_nonneg_right h.u1 (by linarith)
  have := h.η1
  rw [abs_le] at hx d ⊢
  constructor <;> linarith
theorem BdV.sub (h : Std R u η Ω) (hp : BdV R A p) (hq : BdV R B q) (hA : 1 ≤ A) (hB : 1 ≤ B) (hΩ : A + B ≤ Ω) : BdV R (2 * (A + B)) (p - q) := by
  obtain ⟨a, rfl, ra, sa⟩ := hp
  obtain ⟨b, rfl, rb, sb⟩ := hq
  obtain ⟨s1, s2, s3⟩ := sz3_diff sa sb
  obtain ⟨x, rx, ex, bx⟩ := fl_le h s1 hΩ (by linarith)
  obtain ⟨y, ry, ey, by'⟩ := fl_le h s2 hΩ (by linarith)
  obtain ⟨z, rz, ez, bz⟩ := fl_le h s3 hΩ (by linarith)
  refine ⟨⟨x, y, z⟩, ?_, ⟨rx, ry, rz⟩, bx, by', bz⟩
  ext
  · show toF R a.x - toF R b.x = _
    rw [toF_sub ra.1 rb.1]; exact ex
  · show toF R a.y - toF R b.y = _
    rw [toF_sub ra.2.1 rb.2.1]; exact ey
  · show toF R a.z - toF R b.z = _
    rw [toF_sub ra.2.2 rb.2.2]; exact ez
theorem BdV.cross (h : Std R u η Ω) (hp : BdV R A p) (hq : BdV R B q) (hA : 1 ≤ A) (hB : 1 ≤ B) (hΩ : 8 * (A * B) ≤ Ω) : BdV R (8 * (A * B)) (p.cross q) := by
  obtain ⟨a, rfl, ra, sa⟩ := hp
  obtain ⟨b, rfl, rb, sb⟩ := hq
  have hAB : 1 ≤ A * B := by nlinarith
  have minor : ∀ {x y z w : ℝ}, Rep R x → Rep R y → Rep R z → Rep R w → |x| ≤ A → |y| ≤ B → |z| ≤ A → |w| ≤ B → ∃ r, Rep R r ∧ toF R x * toF R y - toF R z * toF R w = toF R r ∧ |r| ≤ 8 * (A * B) := by
    intro x y z w rx ry rz rw' hx hy hz hw
    obtain ⟨k, rk, ek, bk⟩ := fl_le h (mul_abs_le hx hy) (by linarith) hAB
    obtain ⟨l, rl, el, bl⟩ := fl_le h (mul_abs_le hz hw) (by linarith) hAB
    obtain ⟨r, rr, er, br⟩ := fl_le h (x := k - l) (X := 4 * (A * B)) ((abs_sub _ _).trans (by linarith)) (by linarith) (by linarith)
    exact ⟨r, rr, by rw [toF_mul rx ry, toF_mul rz rw', ek, el, toF_sub rk rl, er], by linarith⟩
  obtain ⟨x, rx, ex, bx⟩ := minor ra.2.1 rb.2.2 ra.2.2 rb.2.1 sa.2.1 sb.2.2 sa.2.2 sb.2.1
  obtain ⟨y, ry, ey, by'⟩ := minor ra.2.2 rb.1 ra.1 rb.2.2 sa.2.2 sb.1 sa.1 sb.2.2
  obtain ⟨z, rz, ez, bz⟩ := minor ra.1 rb.2.1 ra.2.1 rb.1 sa.1 sb.2.1 sa.2.1 sb.1
  refine ⟨⟨x, y, z⟩, ?_, ⟨rx, ry, rz⟩, bx, by', bz⟩
  ext
  · exact ex
  · exact ey
  · exact ez

/-! ## Grain -/

variable {G J i j k : ℕ}
/-- All components are infinite or multiples of `G⁻ʲ`. -/
def GrV3 (G j : ℕ) (v : V3 (Fl R)) : Prop := GrF G j v.x ∧ GrF G j v.y ∧ GrF G j v.z
theorem GrV3.up (hp : GrV3 G j p) (hjk : j ≤ k) : GrV3 G k p := ⟨hp.1.up hjk, hp.2.1.up hjk, hp.2.2.up hjk⟩
theorem GrV3.add (h : KeepsGr R G J) (hj : j ≤ J) (hp : GrV3 G j p) (hq : GrV3 G j q) : GrV3 G j (p + q) := ⟨hp.1.add h hj hq.1, hp.2.1.add h hj hq.2.1, hp.2.2.add h hj hq.2.2⟩
theorem GrV3.sub (h : KeepsGr R G J) (hj : j ≤ J) (hp : GrV3 G j p) (hq : GrV3 G j q) : GrV3 G j (p - q) := ⟨hp.1.sub h hj hq.1, hp.2.1.sub h hj hq.2.1, hp.2.2.sub h hj hq.2.2⟩
theorem GrV3.neg (h : KeepsGr R G J) (hj : j ≤ J) (hp : GrV3 G j p) : GrV3 G j (-p) := ⟨hp.1.neg h hj, hp.2.1.neg h hj, hp.2.2.neg h hj⟩
theorem GrV3.smul (h : KeepsGr R G J) (hj : i + j ≤ J) {a : Fl R} (hp : GrV3 G i p) (ha : GrF G j a) : GrV3 G (i + j) (p * a) := ⟨hp.1.mul h hj ha, hp.2.1.mul h hj ha, hp.2.2.mul h hj ha⟩
theorem GrV3.cross (h : KeepsGr R G J) (hj : i + j ≤ J) (hp : GrV3 G i p) (hq : GrV3 G j q) : GrV3 G (i + j) (p.cross q) :=
  ⟨(hp.2.1.mul h hj hq.2.2).sub h hj (hp.2.2.mul h hj hq.2.1), (hp.2.2.mul h hj hq.1).sub h hj (hp.1.mul h hj hq.2.2), (hp.1.mul h hj hq.2.1).sub h hj (hp.2.1.mul h hj hq.1)⟩
theorem GrV3.zero : GrV3 G j (0 : V3 (Fl R)) := ⟨GrF.zero, GrF.zero, GrF.zero⟩
/-- A direction on the grain that is not zero is not small. -/
theorem grain_low (hG0 : 0 < G) {d : V3 ℝ} (rd : Rep3 R d) (nd : d ≠ 0) (hg : GrV3 G j (toV3 R d)) : 1 ≤ size3 d * (G : ℝ) ^ j := by
  have g0 : (0 : ℝ) ≤ (G : ℝ) ^ j := by positivity
  obtain ⟨s1, s2, s3⟩ := sz_size3 d
  by_cases hx : d.x = 0
  · by_cases hy : d.y = 0
    · have hz : d.z ≠ 0 := by
        intro hz
        exact nd (V3.ext hx hy hz)
      exact ((GrF.gr rd.2.2 hg.2.2).le_abs hz hG0).trans (mul_le_mul_of_nonneg_right s3 g0)
    · exact ((GrF.gr rd.2.1 hg.2.1).le_abs hy hG0).trans (mul_le_mul_of_nonneg_right s2 g0)
  · exact ((GrF.gr rd.1 hg.1).le_abs hx hG0).trans (mul_le_mul_of_nonneg_right s1 g0)

/-- The entries of the transform are multiples of `1 / G`. -/
structure Fine3 (G : ℕ) (D : Dec3 ℝ) : Prop where
  r0 : Gr G 1 D.rot.c0.x ∧ Gr G 1 D.rot.c0.y ∧ Gr G 1 D.rot.c0.z
  r1 : Gr G 1 D.rot.c1.x ∧ Gr G 1 D.rot.c1.y ∧ Gr G 1 D.rot.c1.z
  r2 : Gr G 1 D.rot.c2.x ∧ Gr G 1 D.rot.c2.y ∧ Gr G 1 D.rot.c2.z
  disp : Gr G 1 D.disp.x ∧ Gr G 1 D.disp.y ∧ Gr G 1 D.disp.z
/-- The corners are multiples of `1 / G`. -/
def FineS (G : ℕ) (s : Minkowski.Box3 ℝ) : Prop := ∀ v ∈ s.vertsG, Gr G 1 v.x ∧ Gr G 1 v.y ∧ Gr G 1 v.z

variable {s t : Minkowski.Box3 ℝ} {D E : Dec3 ℝ}
theorem real_gr3 (hG : KeepsGr R G J) (hj : j ≤ J) (h : Gr G j v.x ∧ Gr G j v.y ∧ Gr G j v.z) : GrV3 G j (toV3 R v) := ⟨.real hG hj h.1, .real hG hj h.2.1, .real hG hj h.2.2⟩
theorem point3_gr (hG : KeepsGr R G J) (hJ : 2 ≤ J) (hs : D.scale = 1) (h : Fine3 G D) (hp : GrV3 G 1 p) : GrV3 G 2 (pointG3 (decF3 R D) p) := by
  have e : (decF3 R D).scale = 1 := by
    show toF R D.scale = 1
    rw [hs, toF_one]
  have h0 : GrF (R := R) G 0 (decF3 R D).scale := by
    rw [e]
    exact GrF.one
  have h1 : GrV3 G 1 (p * (decF3 R D).scale) := hp.smul (j := 0) hG (by omega) h0
  have c0 : GrV3 G 1 (decF3 R D).rot.c0 := real_gr3 (v := D.rot.c0) hG (by omega) h.r0
  have c1 : GrV3 G 1 (decF3 R D).rot.c1 := real_gr3 (v := D.rot.c1) hG (by omega) h.r1
  have c2 : GrV3 G 1 (decF3 R D).rot.c2 := real_gr3 (v := D.rot.c2) hG (by omega) h.r2
  have cd : GrV3 G 2 (decF3 R D).disp := (real_gr3 (v := D.disp) hG (by omega) h.disp).up (by omega)
  exact GrV3.add hG (by omega) (GrV3.add hG (by omega) (GrV3.add hG (by omega) (c0.smul (i := 1) (j := 1) hG (by omega) h1.1) (c1.smul (i := 1) (j := 1) hG (by omega) h1.2.1))
    (c2.smul (i := 1) (j := 1) hG (by omega) h1.2.2)) cd
theorem maxPoint3_gr {vs : List (V3 (Fl R))} (hv : ∀ v ∈ vs, GrV3 G j v) (e : V3 (Fl R)) : GrV3 G j (maxPointG3 vs e) := by
  unfold maxPointG3
  have key : ∀ (vs : List (V3 (Fl R))) (acc : V3 (Fl R) × Option (Fl R)), (∀ v ∈ vs, GrV3 G j v) → GrV3 G j acc.1 → GrV3 G j (vs.foldl (maxStepG3 e) acc).1 := by
    intro vs
    induction vs with
    | nil => exact fun acc _ ha => ha
    | cons v vs ih =>
      intro acc hv ha
      refine ih _ (fun w hw => hv w (List.mem_cons_of_mem _ hw)) ?_
      have h1 := hv v List.mem_cons_self
      unfold maxStepG3
      split
      · exact h1
      · split
        · exact h1
        · exact ha
  exact key vs _ hv GrV3.zero
theorem support3_gr (h : Std R u η Ω) (hM : 1 ≤ M) (hMΩ : M ≤ Ω) (hG : KeepsGr R G J) (hJ : 2 ≤ J) (hs : FitsS R M s) (gs : FineS G s) (hD : D.scale = 1) (gD : Fine3 G D) {d : V3 (Fl R)}
    (hp : (s.toFl R).supportG (decF3 R D) d = .ok p) : GrV3 G 2 p := by
  have hv : ∀ v ∈ (s.toFl R).vertsG, GrV3 G 1 v := by
    rw [(verts_near h hM hMΩ hs).1]
    intro v hv
    obtain ⟨v', hv', rfl⟩ := List.mem_map.1 hv
    exact real_gr3 hG (by omega) (gs v' hv')
  cases s with
  | particle =>
    injection hp with hp
    rw [← hp]
    exact point3_gr hG hJ hD gD GrV3.zero
  | _ =>
    obtain ⟨e, -, he⟩ := Res.bind_eq_ok.1 hp
    injection he with he
    rw [← he]
    exact point3_gr hG hJ hD gD (maxPoint3_gr hv e)
theorem mink3_gr (h : Std R u η Ω) (hM : 1 ≤ M) (hMΩ : M ≤ Ω) (hG : KeepsGr R G J) (hJ : 2 ≤ J) (hs : FitsS R M s) (ht : FitsS R M t) (gs : FineS G s) (gt : FineS G t) (hD : D.scale = 1) (hE : E.scale = 1)
    (gD : Fine3 G D) (gE : Fine3 G E) {d : V3 (Fl R)} {a : SP (V3 (Fl R))} (ha : SP.fromMinkowski ((s.toFl R).supportG (decF3 R D)) ((t.toFl R).supportG (decF3 R E)) d = .ok a) : GrV3 G 2 a.v := by
  unfold SP.fromMinkowski at ha
  obtain ⟨p, hp, ha⟩ := Res.bind_eq_ok.1 ha
  obtain ⟨q, hq, ha⟩ := Res.bind_eq_ok.1 ha
  injection ha with ha
  rw [← ha]
  exact (support3_gr h hM hMΩ hG hJ hs gs hD gD hp).sub hG hJ (support3_gr h hM hMΩ hG hJ ht gt hE gE hq)

/-! ## The step -/

/-- A search direction: finite, and zero or not small. -/
def GoodDir (R : Rounding F) (M : ℝ) (G : ℕ) (d : V3 (Fl R)) : Prop := ∃ d', d = toV3 R d' ∧ Rep3 R d' ∧ Sz3 (2 ^ 22 * M ^ 3) d' ∧ (d' ≠ 0 → 1 ≤ size3 d' * (G : ℝ) ^ 6)
/-- A point of the simplex: finite and on the grain. -/
def GoodPt (R : Rounding F) (M : ℝ) (G : ℕ) (p : V3 (Fl R)) : Prop := BdV R (13 * M) p ∧ GrV3 G 2 p

theorem good_dir (hG0 : 0 < G) (h1 : BdV R (2 ^ 22 * M ^ 3) p) (h2 : GrV3 G 6 p) : GoodDir R M G p := by
  obtain ⟨d, rfl, r, s⟩ := h1
  exact ⟨d, rfl, r, s, fun nd => grain_low hG0 r nd h2⟩

theorem GoodDir.neg (h : Std R u η Ω) (hM : 2 ^ 22 * M ^ 3 ≤ Ω) (hd : GoodDir R M G p) : GoodDir R M G (-p) := by
  obtain ⟨d, rfl, r, s, low⟩ := hd
  refine ⟨-d, toV3_neg r, rep3_neg h r s hM, s.neg, fun nd => ?_⟩
  have e : size3 (-d) = size3 d := by
    unfold size3
    rw [show (-d).x = -d.x from rfl, show (-d).y = -d.y from rfl, show (-d).z = -d.z from rfl, abs_neg, abs_neg, abs_neg]
  rw [e]
  exact low (fun hz => nd (by rw [hz]; ext <;> simp))

/-- `tenth` is a finite number, not small. -/
def GoodTenth (R : Rounding F) (x : Fl R) : Prop := ∃ y, x = toF R y ∧ Rep R y ∧ 1 / 16 ≤ |y| ∧ |y| ≤ 1

theorem reduce3_good (h : Std R u η Ω) (hM : 1 ≤ M) (hΩ : 2 ^ 32 * M ^ 4 ≤ Ω) (hG : KeepsGr R G J) (hJ : 6 ≤ J) (hG2 : 2 ≤ G) {eps tenth : Fl R} (hT : GoodTenth R tenth)
    {l : List (SP (V3 (Fl R)))} (hl : ∀ p ∈ l, GoodPt R M G p.v) {d : V3 (Fl R)} (hd : GoodDir R M G d) :
    (∀ p ∈ (reduceG3 eps tenth l d).2.1, p ∈ l) ∧ GoodDir R M G (reduceG3 eps tenth l d).2.2 ∧ ((reduceG3 eps tenth l d).1 = true → (reduceG3 eps tenth l d).2.1.length = 4) := by
  have m2 : M ^ 2 ≤ M ^ 3 := pow_le_pow_right₀ hM (by norm_num)
  have m1 : M ≤ M ^ 2 := le_self_pow₀ hM (by norm_num)
  have m4 : M ^ 3 ≤ M ^ 4 := pow_le_pow_right₀ hM (by norm_num)
  have m0 : 0 ≤ M ^ 2 := by positivity
  have hG0 : 0 < G := by omega
  have q2 : ∀ x y : ℝ, (x * M) * (y * M) = x * y * M ^ 2 := fun x y => by ring
  have q3 : ∀ x y : ℝ, (x * M ^ 2) * (y * M) = x * y * M ^ 3 := fun x y => by ring
  -- the difference of two points
  have diff : ∀ {p q : V3 (Fl R)}, GoodPt R M G p → GoodPt R M G q → BdV R (52 * M) (p - q) ∧ GrV3 G 2 (p - q) := fun hp hq =>
    ⟨(hp.1.sub h hq.1 (by linarith) (by linarith) (by linarith)).mono (by linarith), hp.2.sub hG (by omega) hq.2⟩
  have neg : ∀ {p : V3 (Fl R)}, GoodPt R M G p → BdV R (13 * M) (-p) ∧ GrV3 G 2 (-p) := fun hp => ⟨hp.1.neg h (by linarith), hp.2.neg hG (by omega)⟩
  -- the normal of a side
  have normal : ∀ {p q : V3 (Fl R)}, BdV R (52 * M) p ∧ GrV3 G 2 p → BdV R (52 * M) q ∧ GrV3 G 2 q → BdV R (2 ^ 22 * M ^ 3) (p.cross q) ∧ GrV3 G 6 (p.cross q) := fun hp hq =>
    ⟨(hp.1.cross h hq.1 (by linarith) (by linarith) (by rw [q2]; linarith)).mono (by rw [q2]; linarith), (hp.2.cross (i := 2) (j := 2) hG (by omega) hq.2).up (by omega)⟩
  -- towards the origin, perpendicular to a side
  have aba : ∀ {p q : V3 (Fl R)}, BdV R (52 * M) p ∧ GrV3 G 2 p → BdV R (13 * M) q ∧ GrV3 G 2 q → BdV R (2 ^ 22 * M ^ 3) (crossAbaG p q) ∧ GrV3 G 6 (crossAbaG p q) := by
    intro p q hp hq
    have h1 : BdV R (5408 * M ^ 2) (p.cross q) := (hp.1.cross h hq.1 (by linarith) (by linarith) (by rw [q2]; linarith)).mono (by rw [q2]; linarith)
    exact ⟨(h1.cross h hp.1 (by linarith) (by linarith) (by rw [q3]; linarith)).mono (by rw [q3]; linarith), (hp.2.cross (i := 2) (j := 2) hG (by omega) hq.2).cross (i := 4) (j := 2) hG (by omega) hp.2⟩
  have side : ∀ {abc ab ac ao : V3 (Fl R)} {s0 s1 s2 : SP (V3 (Fl R))} {above ign : Bool}, BdV R (2 ^ 22 * M ^ 3) abc ∧ GrV3 G 6 abc → BdV R (52 * M) ab ∧ GrV3 G 2 ab → BdV R (52 * M) ac ∧ GrV3 G 2 ac →
      BdV R (13 * M) ao ∧ GrV3 G 2 ao → (∀ p ∈ (checkSideG abc ab ac ao s0 s1 s2 above ign).1, p = s0 ∨ p = s1 ∨ p = s2) ∧ GoodDir R M G (checkSideG abc ab ac ao s0 s1 s2 above ign).2 := by
    intro abc ab ac ao s0 s1 s2 above ign h0 h1 h2 h3
    unfold checkSideG
    dsimp only
    split
    · refine ⟨fun p hp => ?_, good_dir hG0 (aba h1 h3).1 (aba h1 h3).2⟩
      simp only [List.mem_cons, List.not_mem_nil, or_false] at hp
      exact Or.inr hp
    · split
      · refine ⟨fun p hp => ?_, good_dir hG0 (aba h2 h3).1 (aba h2 h3).2⟩
        simp only [List.mem_cons, List.not_mem_nil, or_false] at hp
        exact hp.imp id Or.inr
      · split
        · refine ⟨fun p hp => ?_, good_dir hG0 h0.1 h0.2⟩
          simp only [List.mem_cons, List.not_mem_nil, or_false] at hp
          exact hp
        · refine ⟨fun p hp => ?_, good_dir hG0 (h0.1.neg h (by linarith)) (h0.2.neg hG (by omega))⟩
          simp only [List.mem_cons, List.not_mem_nil, or_false] at hp
          rcases hp with hp | hp | hp
          · exact Or.inr (Or.inl hp)
          · exact Or.inl hp
          · exact Or.inr (Or.inr hp)
  match l with
  | [] => exact ⟨fun p hp => hp, hd, nofun⟩
  | [_] => exact ⟨fun p hp => hp, hd, nofun⟩
  | _ :: _ :: _ :: _ :: _ :: _ => exact ⟨fun p hp => hp, hd, nofun⟩
  | [s0, s1] =>
    have h0 := hl s0 (by simp)
    have h1 := hl s1 (by simp)
    have g := aba (diff h0 h1) (neg h1)
    unfold reduceG3
    dsimp only
    refine ⟨fun p hp => hp, ?_, nofun⟩
    split
    · obtain ⟨v, ev, rv, sv⟩ := g.1
      obtain ⟨y, ey, ry, y1, y2⟩ := hT
      refine ⟨⟨y, v.y, v.z⟩, ?_, ⟨ry, rv.2.1, rv.2.2⟩, ⟨?_, sv.2.1, sv.2.2⟩, fun _ => ?_⟩
      · rw [ev, ey]
        rfl
      · show |y| ≤ _
        linarith
      · have i1 : |y| ≤ size3 ⟨y, v.y, v.z⟩ := (sz_size3 ⟨y, v.y, v.z⟩).1
        have i2 : (2 : ℝ) ^ 6 ≤ (G : ℝ) ^ 6 := pow_le_pow_left₀ (by norm_num) (by exact_mod_cast hG2) 6
        have i3 : 1 / 16 * (2 : ℝ) ^ 6 ≤ size3 ⟨y, v.y, v.z⟩ * (G : ℝ) ^ 6 := mul_le_mul (y1.trans i1) i2 (by norm_num) (size3_nonneg _)
        linarith
    · exact good_dir hG0 g.1 g.2
  | [s0, s1, s2] =>
    have h0 := hl s0 (by simp)
    have h1 := hl s1 (by simp)
    have h2 := hl s2 (by simp)
    have hab := diff h1 h2
    have hac := diff h0 h2
    obtain ⟨k1, k2⟩ := side (s0 := s0) (s1 := s1) (s2 := s2) (above := false) (ign := false) (normal hab hac) hab hac (neg h2)
    refine ⟨fun p hp => ?_, k2, nofun⟩
    rcases k1 p hp with rfl | rfl | rfl <;> simp
  | [s0, s1, s2, s3] =>
    have h0 := hl s0 (by simp)
    have h1 := hl s1 (by simp)
    have h2 := hl s2 (by simp)
    have h3 := hl s3 (by simp)
    have hab := diff h2 h3
    have hac := diff h1 h3
    have had := diff h0 h3
    have hao := neg h3
    unfold reduceG3
    dsimp only
    split
    · obtain ⟨k1, k2⟩ := side (s0 := s1) (s1 := s2) (s2 := s3) (above := true) (ign := false) (normal hab hac) hab hac hao
      refine ⟨fun p hp => ?_, k2, nofun⟩
      rcases k1 p hp with rfl | rfl | rfl <;> simp
    · split
      · obtain ⟨k1, k2⟩ := side (s0 := s0) (s1 := s1) (s2 := s3) (above := true) (ign := true) (normal hac had) hac had hao
        refine ⟨fun p hp => ?_, k2, nofun⟩
        rcases k1 p hp with rfl | rfl | rfl <;> simp
      · split
        · refine ⟨fun p hp => ?_, good_dir hG0 (normal had hab).1 (normal had hab).2, nofun⟩
          simp only [List.mem_cons, List.not_mem_nil, or_false] at hp
          rcases hp with rfl | rfl | rfl <;> simp
        · exact ⟨fun p hp => hp, hd, fun _ => rfl⟩

/-! ## The run -/

/-- The run on support functions of which the first panics on the direction zero. -/
def zeroAsked (eps tenth : Fl R) (n : Nat) (left right : V3 (Fl R) → Res (V3 (Fl R))) (lp rp : V3 (Fl R)) : Prop := gjkRunG3 eps tenth n (noZero left) right lp rp = .panic

/-- What a miss and what a hit of the 3D GJK in rounded arithmetic say. -/
theorem run3_near (h : Std R u η Ω) (hM : 1 ≤ M) (hΩ : 2 ^ 32 * M ^ 4 ≤ Ω) {eps tenth : Fl R} (hT : GoodTenth R tenth) (hs : FitsS R M s) (ht : FitsS R M t) (hD : Fits3 R M D) (hF : Fits3 R M E)
    (hG : KeepsGr R G J) (hJ : 6 ≤ J) (hG2 : 2 ≤ G) (hηu : η * (G : ℝ) ^ 6 ≤ u) (gs : FineS G s) (gt : FineS G t) (gD : Fine3 G D) (gE : Fine3 G E) (n : Nat) :
    ∃ o, gjkRunG3 eps tenth n ((s.toFl R).supportG (decF3 R D)) ((t.toFl R).supportG (decF3 R E)) (pointG3 (decF3 R D) 0) (pointG3 (decF3 R E) 0) = .ok o ∧
      (o = .miss → NearlySeparated3 (3072 * (u * M)) (Image D.tr s.prim.Points) (Image E.tr t.prim.Points) ∨
        zeroAsked eps tenth n ((s.toFl R).supportG (decF3 R D)) ((t.toFl R).supportG (decF3 R E)) (pointG3 (decF3 R D) 0) (pointG3 (decF3 R E) 0)) ∧
      (∀ x, o = .hit x → x.length = 4 ∧ ∀ p ∈ x, NearPoint3 R (55 * (u * M)) (Image D.tr s.prim.Points) (Image E.tr t.prim.Points) p) := by
  have hu := h.u0
  have hu1 := h.u1
  have hη := h.η0
  have m3 : M ≤ M ^ 3 := le_self_pow₀ hM (by norm_num)
  have m4 : M ^ 3 ≤ M ^ 4 := pow_le_pow_right₀ hM (by norm_num)
  have hG0 : 0 < G := by omega
  have g1 : (1 : ℝ) ≤ (G : ℝ) ^ 6 := one_le_pow₀ (by exact_mod_cast hG0)
  have hηu' : η ≤ u := by
    have : η * 1 ≤ η * (G : ℝ) ^ 6 := mul_le_mul_of_nonneg_left g1 hη
    linarith
  have uM : u * 1 ≤ u * M := mul_le_mul_of_nonneg_left hM hu
  have big : ∀ {d' : V3 ℝ}, Sz3 (2 ^ 22 * M ^ 3) d' → 64 * (M * (size3 d' + 1)) ≤ Ω := by
    intro d' sd
    have h1 := size3_le sd
    have h2 : M * size3 d' ≤ M * (2 ^ 22 * M ^ 3) := mul_le_mul_of_nonneg_left h1 (by linarith)
    have h3 : M * (2 ^ 22 * M ^ 3) = 2 ^ 22 * M ^ 4 := by ring
    rw [h3] at h2
    linarith
  -- one question
  have ask : ∀ {d : V3 (Fl R)}, GoodDir R M G d → ∃ a, SP.fromMinkowski ((s.toFl R).supportG (decF3 R D)) ((t.toFl R).supportG (decF3 R E)) d = .ok a ∧ GoodPt R M G a.v ∧
      NearPoint3 R (55 * (u * M)) (Image D.tr s.prim.Points) (Image E.tr t.prim.Points) a ∧
      (d ≠ 0 → a.v.dot d ≤ 0 → NearlySeparated3 (3072 * (u * M)) (Image D.tr s.prim.Points) (Image E.tr t.prim.Points)) := by
    rintro d ⟨d', rfl, rd, sd, low⟩
    obtain ⟨a, a', ea, va, ra, sa, ⟨v, x, y, p, q, hp, hq, e, r, n1, n2, n3⟩, hmiss⟩ := mink3_near h hs ht hD hF hM rd (sz_size3 d') (big sd)
    refine ⟨a, ea, ⟨⟨a', va, ra, sa⟩, mink3_gr h hM (by linarith) hG (by omega) hs ht gs gt hD.scale hF.scale gD gE ea⟩, ⟨v, x, y, p, q, hp, hq, e, r, n1.mono (by linarith), n2.mono (by linarith), n3.mono (by linarith)⟩, ?_⟩
    intro nd hle
    have nd' : d' ≠ 0 := by
      rintro rfl
      exact nd toV3_zero
    refine ⟨d', nd', fun p q hp hq => (hmiss hle p q hp hq).trans ?_⟩
    have hs0 := size3_nonneg d'
    have h1 : η ≤ u * size3 d' := by
      have h2 : η * 1 ≤ η * (size3 d' * (G : ℝ) ^ 6) := mul_le_mul_of_nonneg_left (low nd') hη
      have h3 : size3 d' * (η * (G : ℝ) ^ 6) ≤ size3 d' * u := mul_le_mul_of_nonneg_left hηu hs0
      linarith
    have h3 : η * M ≤ u * size3 d' * M := mul_le_mul_of_nonneg_right h1 (by linarith)
    have h4 : η * size3 d' ≤ u * size3 d' := mul_le_mul_of_nonneg_right hηu' hs0
    have h5 : u * size3 d' * 1 ≤ u * size3 d' * M := mul_le_mul_of_nonneg_left hM (mul_nonneg hu hs0)
    linarith
  -- the first direction
  have z0 : Rep3 R (0 : V3 ℝ) := ⟨rep_zero, rep_zero, rep_zero⟩
  have zs : Sz3 M (0 : V3 ℝ) := ⟨by simp; linarith, by simp; linarith, by simp; linarith⟩
  have first : GoodDir R M G (firstDirectionG3 eps (pointG3 (decF3 R D) 0) (pointG3 (decF3 R E) 0)) := by
    obtain ⟨p, rp, sp, ep, -⟩ := point3_near h hD hM z0 zs (by linarith)
    obtain ⟨q, rq, sq, eq, -⟩ := point3_near h hF hM z0 zs (by linarith)
    have gp : GrV3 G 2 (pointG3 (decF3 R D) 0) := point3_gr hG (by omega) hD.scale gD GrV3.zero
    have gq : GrV3 G 2 (pointG3 (decF3 R E) 0) := point3_gr hG (by omega) hF.scale gE GrV3.zero
    have bp : BdV R (6 * M) (pointG3 (decF3 R D) 0) := ⟨p, by rw [← ep, toV3_zero], rp, sp⟩
    have bq : BdV R (6 * M) (pointG3 (decF3 R E) 0) := ⟨q, by rw [← eq, toV3_zero], rq, sq⟩
    unfold firstDirectionG3
    dsimp only
    split
    · refine ⟨⟨1, 1, 1⟩, ?_, ⟨rep_one, rep_one, rep_one⟩, ?_, fun _ => ?_⟩
      · show _ = (⟨toF R 1, toF R 1, toF R 1⟩ : V3 (Fl R))
        rw [toF_one]
      · have : Sz3 1 (⟨1, 1, 1⟩ : V3 ℝ) := ⟨by simp, by simp, by simp⟩
        exact this.mono (by linarith)
      · have : (1 : ℝ) ≤ size3 ⟨1, 1, 1⟩ := by
          have := (sz_size3 (⟨1, 1, 1⟩ : V3 ℝ)).1
          simpa using this
        nlinarith
    · exact good_dir hG0 ((bq.sub h bp (by linarith) (by linarith) (by linarith)).mono (by linarith)) ((gq.sub hG (by omega) gp).up (by omega))
  set d := firstDirectionG3 eps (pointG3 (decF3 R D) 0) (pointG3 (decF3 R E) 0) with hd
  obtain ⟨a, ea, ga, na, hmiss⟩ := ask first
  have loop := loop_noZero (reduce := reduceG3 eps tenth) (left := (s.toFl R).supportG (decF3 R D)) (right := (t.toFl R).supportG (decF3 R E))
    (fun l d => GoodDir R M G d ∧ ∀ p ∈ l, GoodPt R M G p.v ∧ NearPoint3 R (55 * (u * M)) (Image D.tr s.prim.Points) (Image E.tr t.prim.Points) p)
    (NearlySeparated3 (3072 * (u * M)) (Image D.tr s.prim.Points) (Image E.tr t.prim.Points))
    (fun x => x.length = 4 ∧ ∀ p ∈ x, NearPoint3 R (55 * (u * M)) (Image D.tr s.prim.Points) (Image E.tr t.prim.Points) p) (by
      rintro l d ⟨hd, hl⟩
      obtain ⟨a, ea, ga, na, hmiss⟩ := ask hd
      have all : ∀ p ∈ l ++ [a], GoodPt R M G p.v ∧ NearPoint3 R (55 * (u * M)) (Image D.tr s.prim.Points) (Image E.tr t.prim.Points) p := by
        intro p hp
        rcases List.mem_append.1 hp with hp | hp
        · exact hl p hp
        · rw [List.mem_singleton.1 hp]
          exact ⟨ga, na⟩
      obtain ⟨k1, k2, k3⟩ := reduce3_good h hM hΩ hG hJ hG2 (eps := eps) hT (fun p hp => (all p hp).1) hd
      exact ⟨a, ea, hmiss, fun _ => ⟨fun hr => ⟨k3 hr, fun p hp => (all p (k1 p hp)).2⟩, fun _ => ⟨k2, fun p hp => all p (k1 p hp)⟩⟩⟩) n [a] (-d) ⟨first.neg h (by linarith), fun p hp => by
        rw [List.mem_singleton.1 hp]
        exact ⟨ga, na⟩⟩
  have run : ∀ left', SP.fromMinkowski left' ((t.toFl R).supportG (decF3 R E)) d = .ok a → gjkRunG3 eps tenth n left' ((t.toFl R).supportG (decF3 R E)) (pointG3 (decF3 R D) 0) (pointG3 (decF3 R E) 0) =
      if Inner.dot a.v d ≤ 0 then .ok .miss else gjkLoop (reduceG3 eps tenth) left' ((t.toFl R).supportG (decF3 R E)) n [a] (-d) := by
    intro left' hl
    unfold gjkRunG3
    dsimp only
    rw [← hd, hl, Res.bind_ok]
    rfl
  rw [run _ ea]
  by_cases hz : d = 0
  · -- the first direction is never zero, but nothing depends on it
    have e : zeroAsked eps tenth n ((s.toFl R).supportG (decF3 R D)) ((t.toFl R).supportG (decF3 R E)) (pointG3 (decF3 R D) 0) (pointG3 (decF3 R E) 0) := by
      unfold zeroAsked gjkRunG3
      dsimp only
      rw [← hd]
      have : SP.fromMinkowski (noZero ((s.toFl R).supportG (decF3 R D))) ((t.toFl R).supportG (decF3 R E)) d = .panic := by
        unfold SP.fromMinkowski noZero
        rw [if_pos hz]
        rfl
      rw [this, Res.bind_panic]
    by_cases hle : Inner.dot a.v d ≤ 0
    · rw [if_pos hle]
      exact ⟨.miss, rfl, fun _ => Or.inr e, nofun⟩
    · rw [if_neg hle]
      obtain ⟨o, ho, -, h4⟩ := loop
      exact ⟨o, ho, fun _ => Or.inr e, h4⟩
  · have e : SP.fromMinkowski (noZero ((s.toFl R).supportG (decF3 R D))) ((t.toFl R).supportG (decF3 R E)) d = .ok a := by
      rw [← ea]
      unfold SP.fromMinkowski noZero
      rw [if_neg hz]
    unfold zeroAsked
    rw [run _ e]
    by_cases hle : Inner.dot a.v d ≤ 0
    · rw [if_pos hle]
      exact ⟨.miss, rfl, fun _ => Or.inl (hmiss hz hle), nofun⟩
    · rw [if_neg hle, if_neg hle]
      exact loop

/-- **C114**: rounded arithmetic with relative error `u`: GJK on two cuboids, cubes, quads, polyhedra without faces or particles does not panic, and when it ends with a miss then in some direction the shapes
overlap by at most `3072 * u * M`, or it asked for a support point in the direction zero. -/
theorem c114_3d_partial (h : Std R u η Ω) (hM : 1 ≤ M) (hΩ : 2 ^ 32 * M ^ 4 ≤ Ω) {eps tenth : Fl R} (hT : GoodTenth R tenth) (hs : FitsS R M s) (ht : FitsS R M t) (hD : Fits3 R M D) (hF : Fits3 R M E)
    (hG : KeepsGr R G J) (hJ : 6 ≤ J) (hG2 : 2 ≤ G) (hηu : η * (G : ℝ) ^ 6 ≤ u) (gs : FineS G s) (gt : FineS G t) (gD : Fine3 G D) (gE : Fine3 G E) (n : Nat) :
    ∃ o, gjkRunG3 eps tenth n ((s.toFl R).supportG (decF3 R D)) ((t.toFl R).supportG (decF3 R E)) (pointG3 (decF3 R D) 0) (pointG3 (decF3 R E) 0) = .ok o ∧
      (o = .miss → NearlySeparated3 (3072 * (u * M)) (Image D.tr s.prim.Points) (Image E.tr t.prim.Points) ∨
        zeroAsked eps tenth n ((s.toFl R).supportG (decF3 R D)) ((t.toFl R).supportG (decF3 R E)) (pointG3 (decF3 R D) 0) (pointG3 (decF3 R E) 0)) := by
  obtain ⟨o, ho, h1, -⟩ := run3_near h hM hΩ hT hs ht hD hF hG hJ hG2 hηu gs gt gD gE (eps := eps) n
  exact ⟨o, ho, h1⟩

/-! ## `f64` -/

/-- A primitive with corners and its placement; the coordinates are real numbers that `f64` can hold. -/
abbrev Placed64 := Minkowski.Box3 ℝ × Dec3 ℝ
/-- All coordinates are numbers of `f64` of at most `M`, and multiples of `2^-170`; no scaling. -/
structure Placed64.Ok (M : ℝ) (a : Placed64) : Prop where
  shape : FitsS binary64 M a.1
  place : Fits3 binary64 M a.2
  fine : FineS (2 ^ 170) a.1
  fineD : Fine3 (2 ^ 170) a.2
/-- The points of an item. -/
def Placed64.At (a : Placed64) : V3 ℝ → Prop := Image a.2.tr a.1.prim.Points
/-- `GJK3::intersect` in `f64`, with at most `n` iterations. -/
def runN3 (n : Nat) (a b : Placed64) : Res (Out (V3 (Fl binary64))) :=
  gjkRunG3 (toF binary64 eps64) (toF binary64 (1 / 10)) n ((a.1.toFl binary64).supportG (decF3 binary64 a.2)) ((b.1.toFl binary64).supportG (decF3 binary64 b.2)) (pointG3 (decF3 binary64 a.2) 0)
    (pointG3 (decF3 binary64 b.2) 0)
/-- That run asks for a support point in the direction zero. -/
def AskedZero (n : Nat) (a b : Placed64) : Prop :=
  zeroAsked (toF binary64 eps64) (toF binary64 (1 / 10)) n ((a.1.toFl binary64).supportG (decF3 binary64 a.2)) ((b.1.toFl binary64).supportG (decF3 binary64 b.2)) (pointG3 (decF3 binary64 a.2) 0)
    (pointG3 (decF3 binary64 b.2) 0)

theorem tenth64 : GoodTenth binary64 (toF binary64 (1 / 10)) := by
  have h0 : (1 : ℝ) ≤ (2 : ℝ) ^ (1022 : ℤ) := one_le_zpow₀ (by norm_num) (by norm_num)
  have h1 : (2 : ℝ) ^ (-53 : ℤ) ≤ 1 / 1024 := by norm_num
  have h2 : (2 : ℝ) ^ (-1075 : ℤ) ≤ (2 : ℝ) ^ (-53 : ℤ) := zpow_le_zpow_right₀ (by norm_num) (by norm_num)
  have key : ∀ {u η Ω : ℝ}, Std binary64 u η Ω → 1 ≤ Ω → u ≤ 1 / 1024 → η ≤ u → GoodTenth binary64 (toF binary64 (1 / 10)) := by
    intro u η Ω h h0 h1 h2
    obtain ⟨y, ry, e, d⟩ := h.err (1 / 10) (by
      rw [abs_of_nonneg (by norm_num)]
      linarith)
    rw [abs_of_nonneg (by norm_num : (0 : ℝ) ≤ 1 / 10), abs_le] at d
    refine ⟨y, e, ry, ?_, ?_⟩
    · rw [abs_of_nonneg (by linarith)]; linarith
    · rw [abs_of_nonneg (by linarith)]; linarith
  exact key std64 h0 h1 h2

/-- The run in `f64`. -/
theorem run3_f64 (hM : 1 ≤ M) (hM' : M ≤ 2 ^ 247) {a b : Placed64} (ha : a.Ok M) (hb : b.Ok M) (n : Nat) :
    ∃ o, runN3 n a b = .ok o ∧ (o = .miss → NearlySeparated3 (3072 * ((2 : ℝ) ^ (-53 : ℤ) * M)) a.At b.At ∨ AskedZero n a b) ∧
      (∀ x, o = .hit x → x.length = 4 ∧ ∀ p ∈ x, NearPoint3 binary64 (55 * ((2 : ℝ) ^ (-53 : ℤ) * M)) a.At b.At p) := by
  refine run3_near std64 hM ?_ tenth64 ha.shape hb.shape ha.place hb.place (keeps64 (k := 170) (J := 6) (by norm_num)) le_rfl ?_ ?_ ha.fine hb.fine ha.fineD hb.fineD n
  · have h1 : M ^ 4 ≤ (2 ^ 247) ^ 4 := pow_le_pow_left₀ (by linarith) hM' 4
    rw [← pow_mul] at h1
    have h2 : (2 : ℝ) ^ 32 * M ^ 4 ≤ 2 ^ 32 * 2 ^ (247 * 4) := mul_le_mul_of_nonneg_left h1 (by positivity)
    rw [← pow_add] at h2
    refine h2.trans ?_
    rw [← zpow_natCast]
    exact zpow_le_zpow_right₀ (by norm_num) (by norm_num)
  · exact Nat.le_self_pow (by norm_num) 2
  · rw [Nat.cast_pow, Nat.cast_ofNat, ← pow_mul, ← zpow_natCast, ← zpow_add₀ (by norm_num)]
    exact zpow_le_zpow_right₀ (by norm_num) (by norm_num)

/-- **C114, `f64`**: all coordinates are numbers of `f64`, at most `M ≤ 2^247` and multiples of `2^-170`. GJK does not panic, and when it ends with a miss then in some direction the shapes overlap by at most
`3072 * 2^-53 * M`, or it asked for a support point in the direction zero. -/
theorem c114_f64_3d_partial (hM : 1 ≤ M) (hM' : M ≤ 2 ^ 247) {a b : Placed64} (ha : a.Ok M) (hb : b.Ok M) (n : Nat) :
    ∃ o, runN3 n a b = .ok o ∧ (o = .miss → NearlySeparated3 (3072 * ((2 : ℝ) ^ (-53 : ℤ) * M)) a.At b.At ∨ AskedZero n a b) := by
  obtain ⟨o, ho, h1, -⟩ := run3_f64 hM hM' ha hb n
  exact ⟨o, ho, h1⟩

/-- **C114, `f64`**: a hit is four points, each within rounding of a difference of points of the shapes. -/
theorem c114_f64_hit (hM : 1 ≤ M) (hM' : M ≤ 2 ^ 247) {a b : Placed64} (ha : a.Ok M) (hb : b.Ok M) {n : Nat} {x : List (SP (V3 (Fl binary64)))} (hx : runN3 n a b = .ok (.hit x)) :
    x.length = 4 ∧ ∀ p ∈ x, NearPoint3 binary64 (55 * ((2 : ℝ) ^ (-53 : ℤ) * M)) a.At b.At p := by
  obtain ⟨o, ho, -, h1⟩ := run3_f64 hM hM' ha hb n
  rw [hx] at ho
  injection ho with ho
  exact h1 x ho.symm

/-- **C114, `f64`**: shapes that overlap by more than rounding are missed only by a run that asks for the direction zero. -/
theorem c114_f64_deep_partial (hM : 1 ≤ M) (hM' : M ≤ 2 ^ 247) {a b : Placed64} (ha : a.Ok M) (hb : b.Ok M) {r : ℝ} (hr : 3072 * ((2 : ℝ) ^ (-53 : ℤ) * M) < r) (hdeep : Deep3 a.At b.At r) (n : Nat) :
    ∃ o, runN3 n a b = .ok o ∧ (o = .miss → AskedZero n a b) := by
  obtain ⟨o, ho, h⟩ := c114_f64_3d_partial hM hM' ha hb n
  exact ⟨o, ho, fun e => (h e).resolve_left (deep3_not_nearly hr (mul_nonneg (by norm_num) (mul_nonneg (zpow_pos (by norm_num) _).le (by linarith))) hdeep)⟩

/-- `f64` numbers `m / 2^k`. -/
theorem frac64 (m : ℤ) (k : ℕ) (hm : |m| < 2 ^ 53) (hk : k ≤ 54) : Rep binary64 (m / 2 ^ k) ∧ Gr (2 ^ 170) 1 (m / 2 ^ k) := by
  refine ⟨rep_of_rep64 ⟨m, -k, hm, by omega, by omega, by rw [zpow_neg, zpow_natCast, div_eq_mul_inv]⟩, ?_⟩
  obtain ⟨l, hl⟩ := Nat.exists_eq_add_of_le (show k ≤ 170 by omega)
  refine ⟨m * 2 ^ l, ?_⟩
  rw [hl, pow_one, pow_add, Nat.cast_mul, Nat.cast_pow, Nat.cast_pow]
  push_cast
  field_simp
theorem int64 (m : ℤ) (hm : |m| < 2 ^ 53) : Rep binary64 (m : ℝ) ∧ Gr (2 ^ 170) 1 (m : ℝ) := by
  have := frac64 m 0 hm (by norm_num)
  rwa [pow_zero, div_one] at this

/-- A cube with an even side at a place with whole coordinates. -/
theorem cube3_ok {W X Y Z M : ℝ} (w x y z : ℤ) (eW : W = 2 * w) (eX : X = x) (eY : Y = y) (eZ : Z = z) (hw : 0 ≤ w ∧ (w : ℝ) ≤ M ∧ |2 * w| < 2 ^ 53) (hx : |(x : ℝ)| ≤ M ∧ |x| < 2 ^ 53)
    (hy : |(y : ℝ)| ≤ M ∧ |y| < 2 ^ 53) (hz : |(z : ℝ)| ≤ M ∧ |z| < 2 ^ 53) : Placed64.Ok M ((.cuboid W W W, shift3 X Y Z) : Placed64) := by
  subst eX eY eZ
  have w0 : (0 : ℝ) ≤ w := by exact_mod_cast hw.1
  have e : W / 2 = w := by rw [eW]; ring
  have hw' : |w| < 2 ^ 53 := by
    have := hw.2.2
    rw [abs_lt] at this ⊢
    omega
  obtain ⟨rw1, gw⟩ := int64 w hw'
  have gn := (int64 (-w) (by rwa [abs_neg])).2
  have r0 : Rep binary64 (0 : ℝ) := rep_zero
  have r1 : Rep binary64 (1 : ℝ) := rep_one
  have g0 : Gr (2 ^ 170) 1 (0 : ℝ) := by simpa using (int64 0 (by norm_num)).2
  have g1 : Gr (2 ^ 170) 1 (1 : ℝ) := by simpa using (int64 1 (by norm_num)).2
  push_cast at gn
  have W0 : 0 ≤ W := by rw [eW]; linarith
  have rW : Rep binary64 W := by
    have := (int64 (2 * w) hw.2.2).1
    push_cast at this
    rwa [← eW] at this
  rw [← e] at rw1
  have hWM : W / 2 ≤ M := by rw [e]; exact hw.2.1
  refine ⟨⟨⟨W0, W0, W0⟩, ⟨rW, rW, rW⟩, ⟨rw1, rw1, rw1⟩, hWM, hWM, hWM⟩,
    ⟨rfl, ⟨⟨r1, r0, r0⟩, ⟨r0, r1, r0⟩, ⟨r0, r0, r1⟩, ⟨by simp [shift3], by simp [shift3], by simp [shift3]⟩, ⟨by simp [shift3], by simp [shift3], by simp [shift3]⟩, ⟨by simp [shift3], by simp [shift3], by simp [shift3]⟩⟩,
      ⟨(int64 x hx.2).1, (int64 y hy.2).1, (int64 z hz.2).1⟩, hx.1, hy.1, hz.1⟩, ?_,
    ⟨⟨g1, g0, g0⟩, ⟨g0, g1, g0⟩, ⟨g0, g0, g1⟩, ⟨(int64 x hx.2).2, (int64 y hy.2).2, (int64 z hz.2).2⟩⟩⟩
  intro v hv
  have e' : W / (1 + 1 : ℝ) = w := by rw [← e]; norm_num
  simp only [Minkowski.Box3.vertsG, boxCornersG, List.mem_cons, List.not_mem_nil, or_false] at hv
  rcases hv with rfl | rfl | rfl | rfl | rfl | rfl | rfl | rfl <;> (simp only [V3.div_x, V3.div_y, V3.div_z, e']; exact ⟨by assumption, by assumption, by assumption⟩)

/-- Two cubes with side 10 at offset (7, 0, 0). -/
def cubeA : Placed64 := (.cuboid 10 10 10, shift3 0 0 0)
def cubeB : Placed64 := (.cuboid 10 10 10, shift3 7 0 0)
/-- They meet the hypotheses of the theorems; they overlap by 3 in every direction. -/
theorem c114_case : cubeA.Ok 7 ∧ cubeB.Ok 7 ∧ Deep3 cubeA.At cubeB.At 3 := by
  refine ⟨cube3_ok 5 0 0 0 (by norm_num) (by norm_num) (by norm_num) (by norm_num) (by norm_num) (by norm_num) (by norm_num) (by norm_num),
    cube3_ok 5 7 0 0 (by norm_num) (by norm_num) (by norm_num) (by norm_num) (by norm_num) (by norm_num) (by norm_num) (by norm_num), ?_⟩
  intro t ht
  have hx : |t.x| ≤ 3 := (Real.abs_le_sqrt (by simp only [V3.dot]; nlinarith [mul_self_nonneg t.y, mul_self_nonneg t.z])).trans ht
  have hy : |t.y| ≤ 3 := (Real.abs_le_sqrt (by simp only [V3.dot]; nlinarith [mul_self_nonneg t.x, mul_self_nonneg t.z])).trans ht
  have hz : |t.z| ≤ 3 := (Real.abs_le_sqrt (by simp only [V3.dot]; nlinarith [mul_self_nonneg t.x, mul_self_nonneg t.y])).trans ht
  rw [abs_le] at hx hy hz
  refine ⟨⟨7 / 2 + t.x / 2, t.y / 2, t.z / 2⟩, ⟨7 / 2 - t.x / 2, -t.y / 2, -t.z / 2⟩, ⟨⟨7 / 2 + t.x / 2, t.y / 2, t.z / 2⟩, ?_, ?_⟩, ⟨⟨-(7 / 2) - t.x / 2, -t.y / 2, -t.z / 2⟩, ?_, ?_⟩, ?_⟩
  · show (-((10 : ℝ) / 2) ≤ _ ∧ _ ≤ (10 : ℝ) / 2) ∧ (-((10 : ℝ) / 2) ≤ _ ∧ _ ≤ (10 : ℝ) / 2) ∧ (-((10 : ℝ) / 2) ≤ _ ∧ _ ≤ (10 : ℝ) / 2)
    refine ⟨⟨?_, ?_⟩, ⟨?_, ?_⟩, ?_, ?_⟩ <;> linarith
  · ext <;> simp [cubeA, shift3, Dec3.tr, M3.apply]
  · show (-((10 : ℝ) / 2) ≤ _ ∧ _ ≤ (10 : ℝ) / 2) ∧ (-((10 : ℝ) / 2) ≤ _ ∧ _ ≤ (10 : ℝ) / 2) ∧ (-((10 : ℝ) / 2) ≤ _ ∧ _ ≤ (10 : ℝ) / 2)
    refine ⟨⟨?_, ?_⟩, ⟨?_, ?_⟩, ?_, ?_⟩ <;> linarith
  · ext <;> simp [cubeB, shift3, Dec3.tr, M3.apply] <;> ring
  · ext <;> simp <;> ring

/-- C114 without the exception is false: whatever the number of iterations from 3 on, there is no simplex for these two cubes (`c105_f64_miss`), so by the theorem the run either asks for the direction zero or
uses all iterations. -/
theorem c114_false (n : Nat) : (∃ o, runN3 (n + 3) cubeA cubeB = .ok o ∧ o.toOption = none ∧ (o = .miss → AskedZero (n + 3) cubeA cubeB)) ∧ cubeA.Ok 7 ∧ cubeB.Ok 7 ∧ Deep3 cubeA.At cubeB.At 3 := by
  obtain ⟨ha, hb, hd⟩ := c114_case
  refine ⟨?_, ha, hb, hd⟩
  obtain ⟨o, ho, h⟩ := c114_f64_deep_partial (M := 7) (by norm_num) (by norm_num) ha hb (by norm_num) hd (n + 3)
  refine ⟨o, ho, ?_, h⟩
  have := c105_f64_miss (fun _ => true) n
  unfold gjkIntersectG3 at this
  unfold runN3 cubeA cubeB at ho
  rw [ho] at this
  injection this
end
end Verif.Scene
