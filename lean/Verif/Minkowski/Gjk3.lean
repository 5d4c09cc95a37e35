import Verif.Minkowski.Gjk2
/-!
# GJK intersection in 3D (C52, C53)
-/
namespace Verif.Minkowski
open Verif Geom Primitive
set_option linter.unusedSectionVars false
variable {K : Type} [Field K] [LinearOrder K] [IsStrictOrderedRing K]

/-! ## Specification -/

/-- A convex set of points. -/
def Convex3 (S : V3 K → Prop) : Prop := ∀ p q (t : K), S p → S q → 0 ≤ t → t ≤ 1 → S (p + (q - p) * t)
/-- `f` is a correct support function of the shape `S`: for every direction (not zero) it returns a point of `S` farthest in that direction. -/
def SupportFn3 (f : V3 K → Res (V3 K)) (S : V3 K → Prop) : Prop := ∀ d, d ≠ 0 → ∃ p, f d = .ok p ∧ Extreme3 S d p
/-- `f` always answers with a point of `S`. -/
def PointsOf3 (f : V3 K → Res (V3 K)) (S : V3 K → Prop) : Prop := ∀ d, ∃ p, f d = .ok p ∧ S p
/-- A plane separates the two shapes (they may touch it). -/
def Separated3 (L R : V3 K → Prop) : Prop := ∃ d : V3 K, d ≠ 0 ∧ ∀ x y, L x → R y → x.dot d ≤ y.dot d
/-- A support point made of one point of each shape. -/
def FromShapes3 (L R : V3 K → Prop) (p : SP (V3 K)) : Prop := L p.supA ∧ R p.supB ∧ p.v = p.supA - p.supB
/-- The origin is in the tetrahedron with these corners. -/
def InTetrahedron (a b c d : V3 K) : Prop :=
  ∃ t u v w : K, 0 ≤ t ∧ 0 ≤ u ∧ 0 ≤ v ∧ 0 ≤ w ∧ t + u + v + w = 1 ∧ a * t + b * u + c * v + d * w = 0
/-- A point of the Minkowski difference. -/
def Mink3 (L R : V3 K → Prop) (x : V3 K) : Prop := ∃ l r, L l ∧ R r ∧ x = l - r

/-! ## Vectors -/

theorem sub_dot3 (a b d : V3 K) : (a - b).dot d = a.dot d - b.dot d := by simp [V3.dot]; ring
theorem dot_neg3 (a d : V3 K) : a.dot (-d) = -a.dot d := by simp [V3.dot]; ring
theorem neg_ne3 {d : V3 K} (h : d ≠ 0) : -d ≠ 0 := by
  intro h0; apply h
  have hx := congrArg V3.x h0
  have hy := congrArg V3.y h0
  have hz := congrArg V3.z h0
  simp at hx hy hz
  ext <;> simp <;> assumption
theorem dot_self_nonneg3 (v : V3 K) : 0 ≤ v.dot v := by
  simp only [V3.dot]; nlinarith [mul_self_nonneg v.x, mul_self_nonneg v.y, mul_self_nonneg v.z]
theorem dot_self_pos3 {v : V3 K} (h : v ≠ 0) : 0 < v.dot v := by
  rcases lt_or_eq_of_le (dot_self_nonneg3 v) with h1 | h1
  · exact h1
  · exfalso
    apply h
    simp only [V3.dot] at h1
    have hx := mul_self_nonneg v.x
    have hy := mul_self_nonneg v.y
    have hz := mul_self_nonneg v.z
    ext <;> simp <;> apply mul_self_eq_zero.1 <;> linarith
theorem firstDirection_ne3 (lp rp : V3 K) : firstDirection lp rp ≠ (0 : V3 K) := by
  unfold firstDirection
  dsimp only
  split
  · intro h; exact one_ne_zero (congrArg V3.x h)
  · assumption

/-- `cross_aba(e, -a)` points away from `a` unless `a` is on the line of `e`. -/
theorem crossAba_dot (e a : V3 K) : a.dot (crossAba e (-a)) = -((e.cross a).dot (e.cross a)) := by
  simp only [crossAba, V3.dot, V3.cross, V3.neg_x, V3.neg_y, V3.neg_z]; ring
theorem crossAba_perp (e a : V3 K) : e.dot (crossAba e a) = 0 := by
  simp only [crossAba, V3.dot, V3.cross]; ring

/-- Convex shapes with a tetrahedron of the Minkowski difference around the origin share a point. -/
theorem meet_of_tetrahedron {L R : V3 K → Prop} (hL : Convex3 L) (hR : Convex3 R) {s0 s1 s2 s3 : SP (V3 K)} (h0 : FromShapes3 L R s0)
    (h1 : FromShapes3 L R s1) (h2 : FromShapes3 L R s2) (h3 : FromShapes3 L R s3) (h : InTetrahedron s0.v s1.v s2.v s3.v) : ∃ x, L x ∧ R x := by
  obtain ⟨t, u, v, w, ht, hu, hv, hw, hs, he⟩ := h
  have key2 : ∀ (S : V3 K → Prop), Convex3 S → ∀ a b (p q : K), S a → S b → 0 ≤ p → 0 ≤ q → 0 < p + q → S (a * (p / (p + q)) + b * (q / (p + q))) := by
    intro S hS a b p q ha hb hp hq hpq
    have := hS a b (q / (p + q)) ha hb (by positivity) (by rw [div_le_one hpq]; linarith)
    have e : a + (b - a) * (q / (p + q)) = a * (p / (p + q)) + b * (q / (p + q)) := by
      ext <;> simp <;> field_simp <;> ring
    rwa [e] at this
  have key : ∀ (S : V3 K → Prop), Convex3 S → ∀ a b c d, S a → S b → S c → S d → S (a * t + b * u + c * v + d * w) := by
    intro S hS a b c d ha hb hc hd
    have hnn1 : 0 ≤ t + u := by linarith
    have hnn2 : 0 ≤ v + w := by linarith
    rcases hnn1.eq_or_lt with h1 | h1
    · have t0 : t = 0 := by linarith
      have u0 : u = 0 := by linarith
      have := key2 S hS c d v w hc hd hv hw (by linarith)
      have e : v + w = 1 := by linarith
      rw [e, div_one, div_one] at this
      have e2 : a * t + b * u + c * v + d * w = c * v + d * w := by
        rw [t0, u0]; ext <;> simp
      rwa [e2]
    · rcases hnn2.eq_or_lt with h2 | h2
      · have v0 : v = 0 := by linarith
        have w0 : w = 0 := by linarith
        have := key2 S hS a b t u ha hb ht hu h1
        have e : t + u = 1 := by linarith
        rw [e, div_one, div_one] at this
        have e2 : a * t + b * u + c * v + d * w = a * t + b * u := by
          rw [v0, w0]; ext <;> simp
        rwa [e2]
      · have h3 := key2 S hS a b t u ha hb ht hu h1
        have h4 := key2 S hS c d v w hc hd hv hw h2
        have h5 := key2 S hS _ _ (t + u) (v + w) h3 h4 hnn1 hnn2 (by linarith)
        have e : t + u + (v + w) = 1 := by linarith
        rw [e, div_one, div_one] at h5
        have e2 : (a * (t / (t + u)) + b * (u / (t + u))) * (t + u) + (c * (v / (v + w)) + d * (w / (v + w))) * (v + w) =
            a * t + b * u + c * v + d * w := by
          ext <;> simp <;> field_simp <;> ring
        rwa [e2] at h5
  refine ⟨s0.supA * t + s1.supA * u + s2.supA * v + s3.supA * w, key L hL _ _ _ _ h0.1 h1.1 h2.1 h3.1, ?_⟩
  have : s0.supA * t + s1.supA * u + s2.supA * v + s3.supA * w = s0.supB * t + s1.supB * u + s2.supB * v + s3.supB * w := by
    rw [h0.2.2, h1.2.2, h2.2.2, h3.2.2] at he
    have hx := congrArg V3.x he
    have hy := congrArg V3.y he
    have hz := congrArg V3.z he
    simp at hx hy hz
    ext <;> simp <;> linarith
  rw [this]
  exact key R hR _ _ _ _ h0.2.1 h1.2.1 h2.2.1 h3.2.1

/-! ## Invariants -/

/-- A triangle with its search direction: the normal, on the side of the origin. -/
def Tri (t0 t1 t2 : SP (V3 K)) (v : V3 K) : Prop := v = (t1.v - t2.v).cross (t0.v - t2.v) ∧ t2.v.dot v ≤ 0

/-- What `check_side` leaves: a triangle, or one of two edges. -/
theorem checkSide_cases (s0 s1 s2 : SP (V3 K)) (above ignoreAb : Bool)
    (ha : above = true → ((s1.v - s2.v).cross (s0.v - s2.v)).dot (-s2.v) > 0) :
    (∃ t0 t1 v, ((t0 = s0 ∧ t1 = s1) ∨ (t0 = s1 ∧ t1 = s0)) ∧
      checkSide ((s1.v - s2.v).cross (s0.v - s2.v)) (s1.v - s2.v) (s0.v - s2.v) (-s2.v) s0 s1 s2 above ignoreAb = ([t0, t1, s2], v) ∧ Tri t0 t1 s2 v) ∨
    (∃ t0, (t0 = s0 ∨ t0 = s1) ∧ (t0.v - s2.v).cross s2.v ≠ 0 ∧
      checkSide ((s1.v - s2.v).cross (s0.v - s2.v)) (s1.v - s2.v) (s0.v - s2.v) (-s2.v) s0 s1 s2 above ignoreAb =
        ([t0, s2], crossAba (t0.v - s2.v) (-s2.v))) := by
  set ab := s1.v - s2.v with hab
  set ac := s0.v - s2.v with hac
  set abc := ab.cross ac with habc
  unfold checkSide
  by_cases h1 : (!ignoreAb) = true ∧ (ab.cross abc).dot (-s2.v) > 0
  · right
    refine ⟨s1, .inr rfl, ?_, by dsimp only; rw [if_pos h1]⟩
    intro h0
    have : (ab.cross abc).dot (-s2.v) = (ab.cross s2.v).dot abc := by
      simp only [V3.dot, V3.cross, V3.neg_x, V3.neg_y, V3.neg_z]; ring
    have h2 := h1.2
    rw [this, h0] at h2
    simp [V3.dot] at h2
  · dsimp only
    rw [if_neg h1]
    by_cases h2 : (abc.cross ac).dot (-s2.v) > 0
    · right
      refine ⟨s0, .inl rfl, ?_, by rw [if_pos h2]⟩
      intro h0
      have : (abc.cross ac).dot (-s2.v) = -(ac.cross s2.v).dot abc := by
        simp only [V3.dot, V3.cross, V3.neg_x, V3.neg_y, V3.neg_z]; ring
      rw [this, h0] at h2
      simp [V3.dot] at h2
    · rw [if_neg h2]
      left
      have e1 : ∀ w : V3 K, s2.v.dot w = -(w.dot (-s2.v)) := fun w => by
        simp only [V3.dot, V3.neg_x, V3.neg_y, V3.neg_z]; ring
      by_cases h3 : above = true ∨ abc.dot (-s2.v) > 0
      · rw [if_pos h3]
        refine ⟨s0, s1, abc, .inl ⟨rfl, rfl⟩, rfl, habc, ?_⟩
        rw [e1]
        rcases h3 with h3 | h3
        · have := ha h3; linarith
        · linarith
      · rw [if_neg h3]
        push Not at h3
        refine ⟨s1, s0, -abc, .inr ⟨rfl, rfl⟩, rfl, ?_, ?_⟩
        · rw [habc, hab, hac]
          ext <;> simp [V3.cross] <;> ring
        · rw [dot_neg3, e1]
          linarith [h3.2]

/-- One step from a triangle. -/
theorem tri_next {t0 t1 t2 a : SP (V3 K)} {v : V3 K} (h : Tri t0 t1 t2 v) (ha : 0 < a.v.dot v) :
    (reduce3 [t0, t1, t2, a] v = (true, [t0, t1, t2, a], v) ∧ InTetrahedron t0.v t1.v t2.v a.v) ∨
    (∃ u0 u1 w, (u0 ∈ [t0, t1, t2] ∧ u1 ∈ [t0, t1, t2]) ∧ reduce3 [t0, t1, t2, a] v = (false, [u0, u1, a], w) ∧ Tri u0 u1 a w ∧ w ≠ 0) ∨
    (∃ u0, u0 ∈ [t0, t1, t2] ∧ (u0.v - a.v).cross a.v ≠ 0 ∧ reduce3 [t0, t1, t2, a] v = (false, [u0, a], crossAba (u0.v - a.v) (-a.v))) := by
  obtain ⟨hv, hl⟩ := h
  set b := t2.v with hb
  set c := t1.v with hc
  set d := t0.v with hd
  have hdet : ((b - a.v).cross (c - a.v)).dot (d - a.v) = -(a.v.dot v - b.dot v) := by
    rw [hv]; simp only [V3.dot, V3.cross, V3.sub_x, V3.sub_y, V3.sub_z]; ring
  have hV : 0 < a.v.dot v - b.dot v := by linarith
  -- the three faces are not degenerate
  have nz1 : (b - a.v).cross (c - a.v) ≠ 0 := by
    intro h0; rw [h0] at hdet; simp [V3.dot] at hdet; linarith [show b.dot v = b.x * v.x + b.y * v.y + b.z * v.z from rfl,
      show a.v.dot v = a.v.x * v.x + a.v.y * v.y + a.v.z * v.z from rfl]
  have nz2 : (c - a.v).cross (d - a.v) ≠ 0 := by
    intro h0
    have : ((c - a.v).cross (d - a.v)).dot (b - a.v) = -(a.v.dot v - b.dot v) := by
      rw [← hdet]; simp only [V3.dot, V3.cross, V3.sub_x, V3.sub_y, V3.sub_z]; ring
    rw [h0] at this; simp only [V3.dot, V3.zero_x, V3.zero_y, V3.zero_z, zero_mul, add_zero] at this
    simp only [V3.dot] at hV; linarith
  have nz3 : (d - a.v).cross (b - a.v) ≠ 0 := by
    intro h0
    have : ((d - a.v).cross (b - a.v)).dot (c - a.v) = -(a.v.dot v - b.dot v) := by
      rw [← hdet]; simp only [V3.dot, V3.cross, V3.sub_x, V3.sub_y, V3.sub_z]; ring
    rw [h0] at this; simp only [V3.dot, V3.zero_x, V3.zero_y, V3.zero_z, zero_mul, add_zero] at this
    simp only [V3.dot] at hV; linarith
  by_cases h1 : ((b - a.v).cross (c - a.v)).dot (-a.v) > 0
  · have hr : reduce3 [t0, t1, t2, a] v = (false,
        (checkSide ((b - a.v).cross (c - a.v)) (b - a.v) (c - a.v) (-a.v) t1 t2 a true false).1,
        (checkSide ((b - a.v).cross (c - a.v)) (b - a.v) (c - a.v) (-a.v) t1 t2 a true false).2) := by
      simp only [reduce3, ← hb, ← hc, ← hd, if_pos h1]
    right
    rcases checkSide_cases t1 t2 a true false (fun _ => h1) with ⟨u0, u1, w, hu, he, ht⟩ | ⟨u0, hu, hne, he⟩
    · left
      rw [he] at hr
      refine ⟨u0, u1, w, ?_, hr, ht, ?_⟩
      · rcases hu with ⟨rfl, rfl⟩ | ⟨rfl, rfl⟩ <;> simp
      · intro h0
        have h3 := ht.1
        rw [h0] at h3
        rcases hu with ⟨rfl, rfl⟩ | ⟨rfl, rfl⟩
        · exact nz1 h3.symm
        · apply nz1
          have hx := congrArg V3.x h3
          have hy := congrArg V3.y h3
          have hz := congrArg V3.z h3
          simp only [V3.cross, V3.sub_x, V3.sub_y, V3.sub_z, V3.zero_x, V3.zero_y, V3.zero_z] at hx hy hz
          ext <;> simp only [V3.cross, V3.sub_x, V3.sub_y, V3.sub_z, V3.zero_x, V3.zero_y, V3.zero_z, hb, hc]
          · linear_combination hx
          · linear_combination hy
          · linear_combination hz
    · right
      rw [he] at hr
      refine ⟨u0, ?_, hne, hr⟩
      rcases hu with rfl | rfl <;> simp
  · by_cases h2 : ((c - a.v).cross (d - a.v)).dot (-a.v) > 0
    · have hr : reduce3 [t0, t1, t2, a] v = (false,
          (checkSide ((c - a.v).cross (d - a.v)) (c - a.v) (d - a.v) (-a.v) t0 t1 a true true).1,
          (checkSide ((c - a.v).cross (d - a.v)) (c - a.v) (d - a.v) (-a.v) t0 t1 a true true).2) := by
        simp only [reduce3, ← hb, ← hc, ← hd, if_neg h1, if_pos h2]
      right
      rcases checkSide_cases t0 t1 a true true (fun _ => h2) with ⟨u0, u1, w, hu, he, ht⟩ | ⟨u0, hu, hne, he⟩
      · left
        rw [he] at hr
        refine ⟨u0, u1, w, ?_, hr, ht, ?_⟩
        · rcases hu with ⟨rfl, rfl⟩ | ⟨rfl, rfl⟩ <;> simp
        · intro h0
          have h3 := ht.1
          rw [h0] at h3
          rcases hu with ⟨rfl, rfl⟩ | ⟨rfl, rfl⟩
          · exact nz2 h3.symm
          · apply nz2
            have hx := congrArg V3.x h3
            have hy := congrArg V3.y h3
            have hz := congrArg V3.z h3
            simp only [V3.cross, V3.sub_x, V3.sub_y, V3.sub_z, V3.zero_x, V3.zero_y, V3.zero_z] at hx hy hz
            ext <;> simp only [V3.cross, V3.sub_x, V3.sub_y, V3.sub_z, V3.zero_x, V3.zero_y, V3.zero_z, hd, hc]
            · linear_combination hx
            · linear_combination hy
            · linear_combination hz
      · right
        rw [he] at hr
        refine ⟨u0, ?_, hne, hr⟩
        rcases hu with rfl | rfl <;> simp
    · by_cases h3 : ((d - a.v).cross (b - a.v)).dot (-a.v) > 0
      · right; left
        refine ⟨t2, t0, (d - a.v).cross (b - a.v), by simp, by simp only [reduce3, ← hb, ← hc, ← hd, if_neg h1, if_neg h2, if_pos h3], ⟨rfl, ?_⟩, nz3⟩
        have : a.v.dot ((d - a.v).cross (b - a.v)) = -(((d - a.v).cross (b - a.v)).dot (-a.v)) := by
          simp only [V3.dot, V3.neg_x, V3.neg_y, V3.neg_z]; ring
        rw [this]; linarith
      · left
        refine ⟨by simp only [reduce3, ← hb, ← hc, ← hd, if_neg h1, if_neg h2, if_neg h3], ?_⟩
        set V := a.v.dot v - b.dot v with hVd
        set x := -((b - a.v).cross (c - a.v)).dot (-a.v) with hx
        set y := -((c - a.v).cross (d - a.v)).dot (-a.v) with hy
        set z := -((d - a.v).cross (b - a.v)).dot (-a.v) with hz
        have hx0 : 0 ≤ x / V := div_nonneg (by linarith) hV.le
        have hy0 : 0 ≤ y / V := div_nonneg (by linarith) hV.le
        have hz0 : 0 ≤ z / V := div_nonneg (by linarith) hV.le
        have hVe : V = -((b - a.v).cross (c - a.v)).dot (d - a.v) := by rw [hdet]; ring
        have hsum : x + y + z = a.v.dot v := by
          rw [hx, hy, hz, hv]; simp only [V3.dot, V3.cross, V3.sub_x, V3.sub_y, V3.sub_z, V3.neg_x, V3.neg_y, V3.neg_z]; ring
        have hle : x / V + y / V + z / V ≤ 1 := by
          rw [← add_div, ← add_div, div_le_one hV, hsum]; linarith
        refine ⟨x / V, z / V, y / V, 1 - x / V - y / V - z / V, hx0, hz0, hy0, by linarith, by ring, ?_⟩
        have hVne := hV.ne'
        have k1 : d.x * x + c.x * z + b.x * y + a.v.x * (V - x - y - z) = 0 := by
          rw [hVe, hx, hy, hz]; simp only [V3.dot, V3.cross, V3.sub_x, V3.sub_y, V3.sub_z, V3.neg_x, V3.neg_y, V3.neg_z]; ring
        have k2 : d.y * x + c.y * z + b.y * y + a.v.y * (V - x - y - z) = 0 := by
          rw [hVe, hx, hy, hz]; simp only [V3.dot, V3.cross, V3.sub_x, V3.sub_y, V3.sub_z, V3.neg_x, V3.neg_y, V3.neg_z]; ring
        have k3 : d.z * x + c.z * z + b.z * y + a.v.z * (V - x - y - z) = 0 := by
          rw [hVe, hx, hy, hz]; simp only [V3.dot, V3.cross, V3.sub_x, V3.sub_y, V3.sub_z, V3.neg_x, V3.neg_y, V3.neg_z]; ring
        ext
        · simp only [V3.add_x, V3.mul_x, V3.zero_x]; field_simp; linear_combination k1
        · simp only [V3.add_y, V3.mul_y, V3.zero_y]; field_simp; linear_combination k2
        · simp only [V3.add_z, V3.mul_z, V3.zero_z]; field_simp; linear_combination k3

/-! ## A returned simplex -/

section
variable (L R : V3 K → Prop)

/-- The states of the loop (all that the correctness of a hit needs). -/
inductive InvA : List (SP (V3 K)) → V3 K → Prop
  | one {s0 d} : FromShapes3 L R s0 → InvA [s0] d
  | two {s0 s1 d} : FromShapes3 L R s0 → FromShapes3 L R s1 → InvA [s0, s1] d
  | three {s0 s1 s2 d} : FromShapes3 L R s0 → FromShapes3 L R s1 → FromShapes3 L R s2 → Tri s0 s1 s2 d → InvA [s0, s1, s2] d

/-- The tetrahedron is not flat, its corners are in the order that makes `(b - a) × (c - a)` and so on the outer normals (`a` last), and the origin is
beyond no face. -/
def Around3 (d c b a : V3 K) : Prop :=
  0 ≤ a.dot (b.cross c) ∧ 0 ≤ a.dot (c.cross d) ∧ 0 ≤ a.dot (d.cross b) ∧ 0 ≤ b.dot (d.cross c) ∧
    0 < a.dot (b.cross c) + a.dot (c.cross d) + a.dot (d.cross b) + b.dot (d.cross c)

/-- What a returned simplex looks like. -/
def GoodHit3 (s : List (SP (V3 K))) : Prop :=
  ∃ s0 s1 s2 s3, s = [s0, s1, s2, s3] ∧ (FromShapes3 L R s0 ∧ FromShapes3 L R s1 ∧ FromShapes3 L R s2 ∧ FromShapes3 L R s3) ∧
    InTetrahedron s0.v s1.v s2.v s3.v ∧ Around3 s0.v s1.v s2.v s3.v

/-- A triangle, with the normal towards the origin, and a point beyond the origin along it. -/
theorem around3_of_hit {t0 t1 t2 a : SP (V3 K)} {v : V3 K} (h : Tri t0 t1 t2 v) (ha : 0 < a.v.dot v) (hr : (reduce3 [t0, t1, t2, a] v).1 = true) :
    Around3 t0.v t1.v t2.v a.v := by
  obtain ⟨hv, h2⟩ := h
  unfold reduce3 at hr
  dsimp only at hr
  split at hr
  · cases hr
  · rename_i c1
    split at hr
    · cases hr
    · rename_i c2
      split at hr
      · cases hr
      · rename_i c3
        have e1 : ((t2.v - a.v).cross (t1.v - a.v)).dot (-a.v) = -a.v.dot (t2.v.cross t1.v) := by
          simp only [V3.dot, V3.cross, V3.sub_x, V3.sub_y, V3.sub_z, V3.neg_x, V3.neg_y, V3.neg_z]; ring
        have e2 : ((t1.v - a.v).cross (t0.v - a.v)).dot (-a.v) = -a.v.dot (t1.v.cross t0.v) := by
          simp only [V3.dot, V3.cross, V3.sub_x, V3.sub_y, V3.sub_z, V3.neg_x, V3.neg_y, V3.neg_z]; ring
        have e3 : ((t0.v - a.v).cross (t2.v - a.v)).dot (-a.v) = -a.v.dot (t0.v.cross t2.v) := by
          simp only [V3.dot, V3.cross, V3.sub_x, V3.sub_y, V3.sub_z, V3.neg_x, V3.neg_y, V3.neg_z]; ring
        have e4 : t2.v.dot v = -t2.v.dot (t0.v.cross t1.v) := by
          rw [hv]; simp only [V3.dot, V3.cross, V3.sub_x, V3.sub_y, V3.sub_z]; ring
        have e5 : a.v.dot v - t2.v.dot v = a.v.dot (t2.v.cross t1.v) + a.v.dot (t1.v.cross t0.v) + a.v.dot (t0.v.cross t2.v) + t2.v.dot (t0.v.cross t1.v) := by
          rw [hv]; simp only [V3.dot, V3.cross, V3.sub_x, V3.sub_y, V3.sub_z]; ring
        rw [e1] at c1
        rw [e2] at c2
        rw [e3] at c3
        refine ⟨by linarith, by linarith, by linarith, by linarith, by linarith⟩

variable {L R}
theorem gjk3_stepA {left right : V3 K → Res (V3 K)} (s : List (SP (V3 K))) (d : V3 K) (hl : ∃ p, left d = .ok p ∧ L p)
    (hr : ∃ p, right (-d) = .ok p ∧ R p) (h : InvA L R s d) : ∃ a, SP.fromMinkowski left right d = .ok a ∧ (Inner.dot a.v d ≤ 0 → True) ∧
      (0 < Inner.dot a.v d → ((reduce3 (s ++ [a]) d).1 = true → GoodHit3 L R (reduce3 (s ++ [a]) d).2.1) ∧
        ((reduce3 (s ++ [a]) d).1 = false → InvA L R (reduce3 (s ++ [a]) d).2.1 (reduce3 (s ++ [a]) d).2.2)) := by
  obtain ⟨p, hp, hpL⟩ := hl
  obtain ⟨q, hq, hqR⟩ := hr
  refine ⟨⟨p - q, p, q⟩, by simp [SP.fromMinkowski, hp, hq], fun _ => trivial, fun hpos => ?_⟩
  have ha : FromShapes3 L R (⟨p - q, p, q⟩ : SP (V3 K)) := ⟨hpL, hqR, rfl⟩
  generalize (⟨p - q, p, q⟩ : SP (V3 K)) = a at *
  cases h with
  | one h0 => exact ⟨nofun, fun _ => .two h0 ha⟩
  | @two s0 s1 _ h0 h1 =>
    have hr : reduce3 ([s0, s1] ++ [a]) d = (false,
      (checkSide ((s1.v - a.v).cross (s0.v - a.v)) (s1.v - a.v) (s0.v - a.v) (-a.v) s0 s1 a false false).1,
      (checkSide ((s1.v - a.v).cross (s0.v - a.v)) (s1.v - a.v) (s0.v - a.v) (-a.v) s0 s1 a false false).2) := rfl
    rw [hr]
    refine ⟨nofun, fun _ => ?_⟩
    rcases checkSide_cases s0 s1 a false false nofun with ⟨u0, u1, w, hu, he, ht⟩ | ⟨u0, hu, _, he⟩
    · rw [he]
      rcases hu with ⟨rfl, rfl⟩ | ⟨rfl, rfl⟩
      · exact .three h0 h1 ha ht
      · exact .three h1 h0 ha ht
    · rw [he]
      rcases hu with rfl | rfl
      · exact .two h0 ha
      · exact .two h1 ha
  | @three s0 s1 s2 _ h0 h1 h2 ht =>
    have hm : ∀ u ∈ [s0, s1, s2], FromShapes3 L R u := by simp [h0, h1, h2]
    show ((reduce3 [s0, s1, s2, a] d).1 = true → GoodHit3 L R (reduce3 [s0, s1, s2, a] d).2.1) ∧
        ((reduce3 [s0, s1, s2, a] d).1 = false → InvA L R (reduce3 [s0, s1, s2, a] d).2.1 (reduce3 [s0, s1, s2, a] d).2.2)
    rcases tri_next ht hpos with ⟨he, hi⟩ | ⟨u0, u1, w, hu, he, hw, _⟩ | ⟨u0, hu, _, he⟩
    · rw [he]
      exact ⟨fun _ => ⟨s0, s1, s2, a, rfl, ⟨h0, h1, h2, ha⟩, hi, around3_of_hit ht hpos (by rw [he])⟩, nofun⟩
    · rw [he]
      exact ⟨nofun, fun _ => .three (hm _ hu.1) (hm _ hu.2) ha hw⟩
    · rw [he]
      exact ⟨nofun, fun _ => .two (hm _ hu) ha⟩

/-- A simplex that GJK returns, for support functions that always answer with a point of their shape. -/
theorem gjk3_runA {left right : V3 K → Res (V3 K)} (hl : PointsOf3 left L) (hr : PointsOf3 right R) (maxIterations : Nat) (leftPos rightPos : V3 K) :
    ∃ o, gjkRun reduce3 maxIterations left right leftPos rightPos = .ok o ∧ (o = .miss → True) ∧ ∀ s, o = .hit s → GoodHit3 L R s := by
  obtain ⟨p, hp, hpL⟩ := hl (firstDirection leftPos rightPos)
  obtain ⟨q, hq, hqR⟩ := hr (-firstDirection leftPos rightPos)
  by_cases h : (p - q).dot (firstDirection leftPos rightPos) ≤ 0
  · exact ⟨.miss, by simp [gjkRun, SP.fromMinkowski, hp, hq, Inner.dot, h], fun _ => trivial, nofun⟩
  · have e : gjkRun reduce3 maxIterations left right leftPos rightPos =
        gjkLoop reduce3 left right maxIterations [⟨p - q, p, q⟩] (-firstDirection leftPos rightPos) := by
      simp [gjkRun, SP.fromMinkowski, hp, hq, Inner.dot, h]
    rw [e]
    exact gjkLoop_spec (InvA L R) True (GoodHit3 L R) (fun s d h => gjk3_stepA s d (hl d) (hr (-d)) h) maxIterations _ _ (.one ⟨hpL, hqR, rfl⟩)

/-- C53 (3D). Whatever the iteration limit, when both support functions always answer with a point of their shape GJK returns (no panic),
and a returned simplex is a tetrahedron of differences of points of the shapes that encloses the origin; convex shapes then share a point. -/
theorem c53_3d (L R : V3 K → Prop) (hL : Convex3 L) (hR : Convex3 R) {left right : V3 K → Res (V3 K)} (hl : PointsOf3 left L)
    (hr : PointsOf3 right R) (maxIterations : Nat) (leftPos rightPos : V3 K) :
    ∃ o, gjkIntersect reduce3 maxIterations left right leftPos rightPos = .ok o ∧
      ∀ s, o = some s → (∃ x, L x ∧ R x) ∧
        ∃ s0 s1 s2 s3, s = [s0, s1, s2, s3] ∧ (∀ p ∈ s, FromShapes3 L R p) ∧ InTetrahedron s0.v s1.v s2.v s3.v := by
  obtain ⟨o, h1, _, h3⟩ := gjk3_runA hl hr maxIterations leftPos rightPos
  refine ⟨o.toOption, by simp [gjkIntersect, h1], ?_⟩
  intro s hs
  cases o with
  | hit t =>
    obtain ⟨s0, s1, s2, s3, rfl, ⟨f0, f1, f2, f3⟩, ht, -⟩ := h3 t rfl
    simp only [Out.toOption, Option.some.injEq] at hs
    subst hs
    refine ⟨meet_of_tetrahedron hL hR f0 f1 f2 f3 ht, s0, s1, s2, s3, rfl, ?_, ht⟩
    simp [f0, f1, f2, f3]
  | miss => simp [Out.toOption] at hs
  | exhausted => simp [Out.toOption] at hs

/-! ## No simplex -/

/-- The states of the loop when the first edge does not pass through the origin. -/
inductive InvB (L R : V3 K → Prop) (left right : V3 K → Res (V3 K)) (d0 : V3 K) : List (SP (V3 K)) → V3 K → Prop
  | one {s0} : SP.fromMinkowski left right d0 = .ok s0 → InvB L R left right d0 [s0] (-d0)
  | two {s0 s1} : (s0.v - s1.v).cross s1.v ≠ 0 → InvB L R left right d0 [s0, s1] (crossAba (s0.v - s1.v) (-s1.v))
  | three {s0 s1 s2 v} : Tri s0 s1 s2 v → v ≠ 0 → InvB L R left right d0 [s0, s1, s2] v

theorem crossAba_ne {e a : V3 K} (h : e.cross a ≠ 0) : crossAba e (-a) ≠ 0 := by
  intro h0
  have h1 := crossAba_dot e a
  rw [h0] at h1
  have h2 := dot_self_pos3 h
  have : a.dot (0 : V3 K) = 0 := by simp [V3.dot]
  linarith

theorem InvB.d_ne {left right : V3 K → Res (V3 K)} {d0 : V3 K} (h0 : d0 ≠ 0) {s : List (SP (V3 K))} {d : V3 K}
    (h : InvB L R left right d0 s d) : d ≠ 0 := by
  cases h with
  | one _ => exact neg_ne3 h0
  | two h => exact crossAba_ne h
  | three _ h => exact h

theorem minkowski3 {left right : V3 K → Res (V3 K)} (hl : SupportFn3 left L) (hr : SupportFn3 right R) {d : V3 K} (hd : d ≠ 0) :
    ∃ a, SP.fromMinkowski left right d = .ok a ∧ FromShapes3 L R a ∧ ∀ x, Mink3 L R x → x.dot d ≤ a.v.dot d := by
  obtain ⟨p, hp, h1, h2⟩ := hl d hd
  obtain ⟨q, hq, h3, h4⟩ := hr (-d) (neg_ne3 hd)
  refine ⟨⟨p - q, p, q⟩, by simp [SP.fromMinkowski, hp, hq], ⟨h1, h3, rfl⟩, ?_⟩
  rintro x ⟨l, r, hl, hr, rfl⟩
  have := h2 l hl
  have := h4 r hr
  rw [dot_neg3, dot_neg3] at this
  show _ ≤ (p - q).dot d
  rw [sub_dot3, sub_dot3]
  linarith

theorem separated_of3 {d : V3 K} (hd : d ≠ 0) {a : V3 K} (hs : ∀ x, Mink3 L R x → x.dot d ≤ a.dot d) (h : a.dot d ≤ 0) : Separated3 L R :=
  ⟨d, hd, fun x y hx hy => by
    have := hs _ ⟨x, y, hx, hy, rfl⟩
    rw [sub_dot3] at this
    linarith⟩

theorem gjk3_stepB {left right : V3 K → Res (V3 K)} (hl : SupportFn3 left L) (hr : SupportFn3 right R) {d0 : V3 K} (h0 : d0 ≠ 0)
    (hcol : ∀ p q, SP.fromMinkowski left right d0 = .ok p → SP.fromMinkowski left right (-d0) = .ok q → p.v.cross q.v ≠ 0)
    (s : List (SP (V3 K))) (d : V3 K)
    (h : InvB L R left right d0 s d) : ∃ a, SP.fromMinkowski left right d = .ok a ∧ (Inner.dot a.v d ≤ 0 → Separated3 L R) ∧
      (0 < Inner.dot a.v d → ((reduce3 (s ++ [a]) d).1 = true → True) ∧
        ((reduce3 (s ++ [a]) d).1 = false → InvB L R left right d0 (reduce3 (s ++ [a]) d).2.1 (reduce3 (s ++ [a]) d).2.2)) := by
  obtain ⟨a, ha, hf, hs⟩ := minkowski3 hl hr (h.d_ne h0)
  refine ⟨a, ha, separated_of3 (h.d_ne h0) hs, fun hpos => ⟨fun _ => trivial, fun hff => ?_⟩⟩
  cases h with
  | @one s0 h1 =>
    have hne : (s0.v - a.v).cross a.v ≠ 0 := by
      have := hcol s0 a h1 ha
      intro h2
      apply this
      rw [← h2]
      ext <;> simp only [V3.cross, V3.sub_x, V3.sub_y, V3.sub_z] <;> ring
    have hr : reduce3 ([s0] ++ [a]) (-d0) = (false, [s0, a], crossAba (s0.v - a.v) (-a.v)) := by
      show (false, [s0, a], if crossAba (s0.v - a.v) (-a.v) = 0 then _ else crossAba (s0.v - a.v) (-a.v)) = _
      rw [if_neg (crossAba_ne hne)]
    rw [hr]
    exact .two hne
  | @two s0 s1 h1 =>
    have hr : reduce3 ([s0, s1] ++ [a]) (crossAba (s0.v - s1.v) (-s1.v)) = (false,
      (checkSide ((s1.v - a.v).cross (s0.v - a.v)) (s1.v - a.v) (s0.v - a.v) (-a.v) s0 s1 a false false).1,
      (checkSide ((s1.v - a.v).cross (s0.v - a.v)) (s1.v - a.v) (s0.v - a.v) (-a.v) s0 s1 a false false).2) := rfl
    rw [hr]
    have hne : (s1.v - a.v).cross (s0.v - a.v) ≠ 0 := by
      intro h2
      have e1 : s1.v.dot (crossAba (s0.v - s1.v) (-s1.v)) < 0 := by
        rw [crossAba_dot]; have := dot_self_pos3 h1; linarith
      have e2 : 0 < a.v.dot (crossAba (s0.v - s1.v) (-s1.v)) := hpos
      have e3 : (a.v.dot (crossAba (s0.v - s1.v) (-s1.v)) - s1.v.dot (crossAba (s0.v - s1.v) (-s1.v))) =
          -((s1.v - a.v).cross (s0.v - a.v)).dot ((s0.v - s1.v).cross s1.v) := by
        simp only [crossAba, V3.dot, V3.cross, V3.sub_x, V3.sub_y, V3.sub_z, V3.neg_x, V3.neg_y, V3.neg_z]; ring
      rw [h2] at e3
      simp only [V3.dot, V3.zero_x, V3.zero_y, V3.zero_z, zero_mul, add_zero, neg_zero] at e1 e2 e3
      linarith
    rcases checkSide_cases s0 s1 a false false nofun with ⟨u0, u1, w, hu, he, ht⟩ | ⟨u0, hu, hn, he⟩
    · rw [he]
      refine .three ht ?_
      intro hw
      change w = 0 at hw
      have h3 := ht.1
      rw [hw] at h3
      rcases hu with ⟨rfl, rfl⟩ | ⟨rfl, rfl⟩
      · exact hne h3.symm
      · apply hne
        have hx := congrArg V3.x h3
        have hy := congrArg V3.y h3
        have hz := congrArg V3.z h3
        simp only [V3.cross, V3.sub_x, V3.sub_y, V3.sub_z, V3.zero_x, V3.zero_y, V3.zero_z] at hx hy hz
        ext <;> simp only [V3.cross, V3.sub_x, V3.sub_y, V3.sub_z, V3.zero_x, V3.zero_y, V3.zero_z]
        · linear_combination hx
        · linear_combination hy
        · linear_combination hz
    · rw [he]
      exact .two hn
  | @three s0 s1 s2 _ ht _ =>
    show InvB L R left right d0 (reduce3 [s0, s1, s2, a] d).2.1 (reduce3 [s0, s1, s2, a] d).2.2
    rcases tri_next ht hpos with ⟨he, hi⟩ | ⟨u0, u1, w, hu, he, hw, hwn⟩ | ⟨u0, hu, hn, he⟩
    · simp only [List.cons_append, List.nil_append, he] at hff
      cases hff
    · rw [he]; exact .three hw hwn
    · rw [he]; exact .two hn

/-- Both halves together, when the first two support points are not on a line through the origin. -/
theorem gjk3_run {left right : V3 K → Res (V3 K)} (hl : SupportFn3 left L)
    (hr : SupportFn3 right R) (maxIterations : Nat) (leftPos rightPos : V3 K)
    (hcol : ∀ p q, SP.fromMinkowski left right (firstDirection leftPos rightPos) = .ok p →
      SP.fromMinkowski left right (-firstDirection leftPos rightPos) = .ok q → p.v.cross q.v ≠ 0) :
    ∃ o, gjkRun reduce3 maxIterations left right leftPos rightPos = .ok o ∧ (o = .miss → Separated3 L R) ∧ ∀ s, o = .hit s → GoodHit3 L R s := by
  have hd := firstDirection_ne3 leftPos rightPos
  obtain ⟨a, ha, hf, hs⟩ := minkowski3 hl hr hd
  by_cases hm : a.v.dot (firstDirection leftPos rightPos) ≤ 0
  · exact ⟨.miss, by simp [gjkRun, ha, Inner.dot, hm], fun _ => separated_of3 hd hs hm, nofun⟩
  · have e : gjkRun reduce3 maxIterations left right leftPos rightPos =
        gjkLoop reduce3 left right maxIterations [a] (-firstDirection leftPos rightPos) := by
      simp [gjkRun, ha, Inner.dot, hm]
    rw [e]
    refine gjkLoop_spec (fun s d => InvA L R s d ∧ InvB L R left right (firstDirection leftPos rightPos) s d) (Separated3 L R) (GoodHit3 L R)
      ?_ maxIterations _ _ ⟨.one hf, .one ha⟩
    rintro s d ⟨h1, h2⟩
    have hd' := h2.d_ne hd
    obtain ⟨b, hb, b1, b2⟩ := gjk3_stepB hl hr hd hcol s d h2
    obtain ⟨p, hp, hp2, _⟩ := hl d hd'
    obtain ⟨q, hq, hq2, _⟩ := hr (-d) (neg_ne3 hd')
    obtain ⟨c, hc, _, c2⟩ := gjk3_stepA s d ⟨p, hp, hp2⟩ ⟨q, hq, hq2⟩ h1
    rw [hb] at hc
    cases hc
    exact ⟨b, hb, b1, fun h => ⟨(c2 h).1, fun hf => ⟨(c2 h).2 hf, (b2 h).2 hf⟩⟩⟩

/-- C52 (3D), the part that holds: when the first two support points are not on a line through the origin, "no collision" before the
iterations are used up means that a plane separates the shapes. Missing: first two support points in line with the origin (see `c52_3d_false`). -/
theorem c52_3d_partial (L R : V3 K → Prop) {left right : V3 K → Res (V3 K)} (hl : SupportFn3 left L)
    (hr : SupportFn3 right R) (maxIterations : Nat) (leftPos rightPos : V3 K)
    (hcol : ∀ p q, SP.fromMinkowski left right (firstDirection leftPos rightPos) = .ok p →
      SP.fromMinkowski left right (-firstDirection leftPos rightPos) = .ok q → p.v.cross q.v ≠ 0)
    (h : gjkRun reduce3 maxIterations left right leftPos rightPos = .ok .miss) : Separated3 L R := by
  obtain ⟨o, h1, h2, _⟩ := gjk3_run hl hr maxIterations leftPos rightPos hcol
  rw [h] at h1
  cases h1
  exact h2 rfl

/-- C53 (3D) for shapes whose support is not defined in direction zero (spheres, capsules): under the condition of `c52_3d_partial` that direction
is never asked for. -/
theorem c53_3d_round (L R : V3 K → Prop) (hL : Convex3 L) (hR : Convex3 R) {left right : V3 K → Res (V3 K)} (hl : SupportFn3 left L)
    (hr : SupportFn3 right R) (maxIterations : Nat) (leftPos rightPos : V3 K)
    (hcol : ∀ p q, SP.fromMinkowski left right (firstDirection leftPos rightPos) = .ok p →
      SP.fromMinkowski left right (-firstDirection leftPos rightPos) = .ok q → p.v.cross q.v ≠ 0) :
    ∃ o, gjkIntersect reduce3 maxIterations left right leftPos rightPos = .ok o ∧
      ∀ s, o = some s → (∃ x, L x ∧ R x) ∧
        ∃ s0 s1 s2 s3, s = [s0, s1, s2, s3] ∧ (∀ p ∈ s, FromShapes3 L R p) ∧ InTetrahedron s0.v s1.v s2.v s3.v := by
  obtain ⟨o, h1, _, h3⟩ := gjk3_run hl hr maxIterations leftPos rightPos hcol
  refine ⟨o.toOption, by simp [gjkIntersect, h1], ?_⟩
  intro s hs
  cases o with
  | hit t =>
    obtain ⟨s0, s1, s2, s3, rfl, ⟨f0, f1, f2, f3⟩, ht, -⟩ := h3 t rfl
    simp only [Out.toOption, Option.some.injEq] at hs
    subst hs
    refine ⟨meet_of_tetrahedron hL hR f0 f1 f2 f3 ht, s0, s1, s2, s3, rfl, ?_, ht⟩
    simp [f0, f1, f2, f3]
  | miss => simp [Out.toOption] at hs
  | exhausted => simp [Out.toOption] at hs
end
end Verif.Minkowski
