import Verif.Primitive.Model
import Verif.Geom.Transformed
/-!
# Support points and bounds of the primitives: C46, C47, C48, C61
-/
namespace Verif.Primitive
open Verif Verif.Geom
set_option linter.unusedSectionVars false

/-! ## Specification -/

section
variable {K : Type} [Field K] [LinearOrder K]

/-- Specification: `p` is a point of `S`, and no point of `S` is further along `d`. -/
def Extreme2 (S : V2 K → Prop) (d p : V2 K) : Prop := S p ∧ ∀ q, S q → q.dot d ≤ p.dot d
/-- Specification: `p` is a point of `S`, and no point of `S` is further along `d`. -/
def Extreme3 (S : V3 K → Prop) (d p : V3 K) : Prop := S p ∧ ∀ q, S q → q.dot d ≤ p.dot d

/-- Specification: the rectangle with sides `w`, `h`, centred. -/
def InRect (w h : K) (p : V2 K) : Prop := (-(w / 2) ≤ p.x ∧ p.x ≤ w / 2) ∧ (-(h / 2) ≤ p.y ∧ p.y ≤ h / 2)
/-- Specification: the box with sides `w`, `h`, `l`, centred. -/
def InBox (w h l : K) (p : V3 K) : Prop :=
  (-(w / 2) ≤ p.x ∧ p.x ≤ w / 2) ∧ (-(h / 2) ≤ p.y ∧ p.y ≤ h / 2) ∧ (-(l / 2) ≤ p.z ∧ p.z ≤ l / 2)
/-- Specification: the rectangle with sides `w`, `h` in the plane `z = 0`. -/
def InQuad (w h : K) (p : V3 K) : Prop := (-(w / 2) ≤ p.x ∧ p.x ≤ w / 2) ∧ (-(h / 2) ≤ p.y ∧ p.y ≤ h / 2) ∧ p.z = 0

/-- Specification: the convex hull (smallest convex set) of the points `vs`. -/
inductive Hull2 (vs : List (V2 K)) : V2 K → Prop
  | vertex {v} : v ∈ vs → Hull2 vs v
  | seg {p q} {t : K} : Hull2 vs p → Hull2 vs q → 0 ≤ t → t ≤ 1 → Hull2 vs (p + (q - p) * t)
/-- Specification: the convex hull (smallest convex set) of the points `vs`. -/
inductive Hull3 (vs : List (V3 K)) : V3 K → Prop
  | vertex {v} : v ∈ vs → Hull3 vs v
  | seg {p q} {t : K} : Hull3 vs p → Hull3 vs q → 0 ≤ t → t ≤ 1 → Hull3 vs (p + (q - p) * t)
end

/-- Specification: the disc of radius `r` around the origin. -/
def InDisc (r : ℝ) (p : V2 ℝ) : Prop := p.norm ≤ r
/-- Specification: the ball of radius `r` around the origin. -/
def InBall (r : ℝ) (p : V3 ℝ) : Prop := p.norm ≤ r
/-- Specification: the capsule around the axis from `(0,-h,0)` to `(0,h,0)`. -/
def InCapsule (h r : ℝ) (p : V3 ℝ) : Prop := ∃ s, -h ≤ s ∧ s ≤ h ∧ (p - ⟨0, s, 0⟩).norm ≤ r
/-- Specification: the cylinder around the `y` axis. -/
def InCylinder (h r : ℝ) (p : V3 ℝ) : Prop := (-h ≤ p.y ∧ p.y ≤ h) ∧ p.x * p.x + p.z * p.z ≤ r * r

/-! ## From the local frame to the world -/

section
variable {K : Type} [Field K] [LinearOrder K] [IsStrictOrderedRing K]

theorem support_extreme2 (S : V2 K → Prop) (loc : V2 K → V2 K) {T : Tr (V2 K)} (hT : Similar2 T) (d : V2 K)
    (hl : ∀ e, T.invVector d = some e → Extreme2 S e (loc e)) : ∃ p, support loc T d = .ok p ∧ Extreme2 (Image T S) d p := by
  obtain ⟨c, hc, h⟩ := hT
  obtain ⟨e, he, hdot⟩ := h d
  refine ⟨T.point (loc e), by simp [support, he], ⟨_, (hl e he).1, rfl⟩, ?_⟩
  rintro q ⟨p, hp, rfl⟩
  have h1 := hdot (loc e) p
  have h2 := (hl e he).2 p hp
  have h3 : (T.point (loc e) - T.point p).dot d = (T.point (loc e)).dot d - (T.point p).dot d := by simp [V2.dot]; ring
  have h4 : (loc e - p).dot e = (loc e).dot e - p.dot e := by simp [V2.dot]; ring
  have : 0 ≤ c * ((loc e - p).dot e) := mul_nonneg hc.le (by linarith)
  linarith

theorem support_extreme3 (S : V3 K → Prop) (loc : V3 K → V3 K) {T : Tr (V3 K)} (hT : Similar3 T) (d : V3 K)
    (hl : ∀ e, T.invVector d = some e → Extreme3 S e (loc e)) : ∃ p, support loc T d = .ok p ∧ Extreme3 (Image T S) d p := by
  obtain ⟨c, hc, h⟩ := hT
  obtain ⟨e, he, hdot⟩ := h d
  refine ⟨T.point (loc e), by simp [support, he], ⟨_, (hl e he).1, rfl⟩, ?_⟩
  rintro q ⟨p, hp, rfl⟩
  have h1 := hdot (loc e) p
  have h2 := (hl e he).2 p hp
  have h3 : (T.point (loc e) - T.point p).dot d = (T.point (loc e)).dot d - (T.point p).dot d := by simp [V3.dot]; ring
  have h4 : (loc e - p).dot e = (loc e).dot e - p.dot e := by simp [V3.dot]; ring
  have : 0 ≤ c * ((loc e - p).dot e) := mul_nonneg hc.le (by linarith)
  linarith

theorem dec_inv_ne2 (D : Dec2 K) (ho : D.rot.Orthogonal) (hs : D.scale ≠ 0) {d e : V2 K} (hd : d ≠ 0) (h : D.tr.invVector d = some e) : e ≠ 0 := by
  rintro rfl
  simp only [Dec2.tr, if_neg hs, Option.some.injEq] at h
  have h2 := M2.right_inv ho (d / D.scale)
  rw [h] at h2
  apply hd
  have hx := congrArg V2.x h2
  have hy := congrArg V2.y h2
  simp [M2.apply] at hx hy
  ext
  · have := hx.symm; rw [div_eq_zero_iff] at this; exact this.resolve_right hs
  · have := hy.symm; rw [div_eq_zero_iff] at this; exact this.resolve_right hs

theorem dec_inv_ne3 (D : Dec3 K) (ho : D.rot.Orthogonal) (hs : D.scale ≠ 0) {d e : V3 K} (hd : d ≠ 0) (h : D.tr.invVector d = some e) : e ≠ 0 := by
  rintro rfl
  simp only [Dec3.tr, if_neg hs, Option.some.injEq] at h
  have h2 := ho.2 (d / D.scale)
  rw [h] at h2
  apply hd
  have hx := congrArg V3.x h2
  have hy := congrArg V3.y h2
  have hz := congrArg V3.z h2
  simp [M3.apply] at hx hy hz
  ext
  · have := hx.symm; rw [div_eq_zero_iff] at this; exact this.resolve_right hs
  · have := hy.symm; rw [div_eq_zero_iff] at this; exact this.resolve_right hs
  · have := hz.symm; rw [div_eq_zero_iff] at this; exact this.resolve_right hs

theorem supportRound_eq {P : Type} [Zero P] [DecidableEq P] (loc : P → P) (T : Tr P) (d : P) (h : ∀ e, T.invVector d = some e → e ≠ 0) :
    supportRound loc T d = support loc T d := by
  unfold supportRound support
  cases he : T.invVector d with
  | none => rfl
  | some e => simp [h e he]

/-! ## Polytopes -/

theorem maxPoint2_aux (e : V2 K) (vs : List (V2 K)) (p : V2 K) :
    let r := vs.foldl (fun (acc : V2 K × Option K) v =>
      match acc.2 with
      | none => (v, some (v.dot e))
      | some m => if v.dot e > m then (v, some (v.dot e)) else acc) (p, some (p.dot e))
    (r.1 = p ∨ r.1 ∈ vs) ∧ p.dot e ≤ r.1.dot e ∧ ∀ v ∈ vs, v.dot e ≤ r.1.dot e := by
  induction vs generalizing p with
  | nil => simp
  | cons v vs ih =>
    simp only [List.foldl_cons]
    split
    · next h =>
      obtain ⟨h1, h2, h3⟩ := ih v
      refine ⟨Or.inr ?_, le_trans h.le h2, ?_⟩
      · rcases h1 with h1 | h1
        · rw [h1]; exact List.mem_cons_self
        · exact List.mem_cons_of_mem _ h1
      · intro w hw
        rcases List.mem_cons.1 hw with rfl | hw
        · exact h2
        · exact h3 w hw
    · next h =>
      obtain ⟨h1, h2, h3⟩ := ih p
      refine ⟨?_, h2, ?_⟩
      · rcases h1 with h1 | h1
        · exact Or.inl h1
        · exact Or.inr (List.mem_cons_of_mem _ h1)
      · intro w hw
        rcases List.mem_cons.1 hw with rfl | hw
        · exact le_trans (not_lt.1 h) h2
        · exact h3 w hw

/-- the fold of `get_max_point` finds a vertex of greatest dot product -/
theorem maxPoint2_spec (vs : List (V2 K)) (e : V2 K) (hv : vs ≠ []) :
    maxPoint2 vs e ∈ vs ∧ ∀ v ∈ vs, v.dot e ≤ (maxPoint2 vs e).dot e := by
  obtain ⟨v, vs, rfl⟩ := List.exists_cons_of_ne_nil hv
  obtain ⟨h1, h2, h3⟩ := maxPoint2_aux e vs v
  refine ⟨?_, ?_⟩
  · rcases h1 with h1 | h1
    · have h4 : maxPoint2 (v :: vs) e = v := h1
      rw [h4]; exact List.mem_cons_self
    · exact List.mem_cons_of_mem _ h1
  · intro w hw
    rcases List.mem_cons.1 hw with rfl | hw
    · exact h2
    · exact h3 w hw

theorem maxPoint3_aux (e : V3 K) (vs : List (V3 K)) (p : V3 K) :
    let r := vs.foldl (fun (acc : V3 K × Option K) v =>
      match acc.2 with
      | none => (v, some (v.dot e))
      | some m => if v.dot e > m then (v, some (v.dot e)) else acc) (p, some (p.dot e))
    (r.1 = p ∨ r.1 ∈ vs) ∧ p.dot e ≤ r.1.dot e ∧ ∀ v ∈ vs, v.dot e ≤ r.1.dot e := by
  induction vs generalizing p with
  | nil => simp
  | cons v vs ih =>
    simp only [List.foldl_cons]
    split
    · next h =>
      obtain ⟨h1, h2, h3⟩ := ih v
      refine ⟨Or.inr ?_, le_trans h.le h2, ?_⟩
      · rcases h1 with h1 | h1
        · rw [h1]; exact List.mem_cons_self
        · exact List.mem_cons_of_mem _ h1
      · intro w hw
        rcases List.mem_cons.1 hw with rfl | hw
        · exact h2
        · exact h3 w hw
    · next h =>
      obtain ⟨h1, h2, h3⟩ := ih p
      refine ⟨?_, h2, ?_⟩
      · rcases h1 with h1 | h1
        · exact Or.inl h1
        · exact Or.inr (List.mem_cons_of_mem _ h1)
      · intro w hw
        rcases List.mem_cons.1 hw with rfl | hw
        · exact le_trans (not_lt.1 h) h2
        · exact h3 w hw

/-- the fold of `get_max_point` finds a vertex of greatest dot product -/
theorem maxPoint3_spec (vs : List (V3 K)) (e : V3 K) (hv : vs ≠ []) :
    maxPoint3 vs e ∈ vs ∧ ∀ v ∈ vs, v.dot e ≤ (maxPoint3 vs e).dot e := by
  obtain ⟨v, vs, rfl⟩ := List.exists_cons_of_ne_nil hv
  obtain ⟨h1, h2, h3⟩ := maxPoint3_aux e vs v
  refine ⟨?_, ?_⟩
  · rcases h1 with h1 | h1
    · have h4 : maxPoint3 (v :: vs) e = v := h1
      rw [h4]; exact List.mem_cons_self
    · exact List.mem_cons_of_mem _ h1
  · intro w hw
    rcases List.mem_cons.1 hw with rfl | hw
    · exact h2
    · exact h3 w hw

theorem hull2_le {vs : List (V2 K)} {e : V2 K} {m : K} (h : ∀ v ∈ vs, v.dot e ≤ m) {q : V2 K} (hq : Hull2 vs q) : q.dot e ≤ m := by
  induction hq with
  | vertex hv => exact h _ hv
  | @seg p q t _ _ t0 t1 ih1 ih2 =>
    have : (p + (q - p) * t).dot e = (1 - t) * p.dot e + t * q.dot e := by simp [V2.dot]; ring
    rw [this]
    have h1 : (1 - t) * p.dot e ≤ (1 - t) * m := mul_le_mul_of_nonneg_left ih1 (by linarith)
    have h2 : t * q.dot e ≤ t * m := mul_le_mul_of_nonneg_left ih2 t0
    linarith

theorem hull3_le {vs : List (V3 K)} {e : V3 K} {m : K} (h : ∀ v ∈ vs, v.dot e ≤ m) {q : V3 K} (hq : Hull3 vs q) : q.dot e ≤ m := by
  induction hq with
  | vertex hv => exact h _ hv
  | @seg p q t _ _ t0 t1 ih1 ih2 =>
    have : (p + (q - p) * t).dot e = (1 - t) * p.dot e + t * q.dot e := by simp [V3.dot]; ring
    rw [this]
    have h1 : (1 - t) * p.dot e ≤ (1 - t) * m := mul_le_mul_of_nonneg_left ih1 (by linarith)
    have h2 : t * q.dot e ≤ t * m := mul_le_mul_of_nonneg_left ih2 t0
    linarith

/-- vertex fold on the convex hull -/
theorem hull2_extreme (vs : List (V2 K)) (hv : vs ≠ []) (e : V2 K) : Extreme2 (Hull2 vs) e (maxPoint2 vs e) :=
  ⟨.vertex (maxPoint2_spec vs e hv).1, fun _ hq => hull2_le (maxPoint2_spec vs e hv).2 hq⟩
/-- vertex fold on the convex hull -/
theorem hull3_extreme (vs : List (V3 K)) (hv : vs ≠ []) (e : V3 K) : Extreme3 (Hull3 vs) e (maxPoint3 vs e) :=
  ⟨.vertex (maxPoint3_spec vs e hv).1, fun _ hq => hull3_le (maxPoint3_spec vs e hv).2 hq⟩

theorem mul_le_abs_mul {a b h : K} (h1 : -h ≤ a) (h2 : a ≤ h) : a * b ≤ h * |b| := by
  rcases le_total 0 b with hb | hb
  · rw [abs_of_nonneg hb]; exact mul_le_mul_of_nonneg_right h2 hb
  · rw [abs_of_nonpos hb]; nlinarith

theorem signed_corner (h b : K) : ∃ x, (x = h ∨ x = -h) ∧ x * b = h * |b| := by
  rcases le_total 0 b with hb | hb
  · exact ⟨h, Or.inl rfl, by rw [abs_of_nonneg hb]⟩
  · exact ⟨-h, Or.inr rfl, by rw [abs_of_nonpos hb]; ring⟩

theorem rect_extreme (w h : K) (hw : 0 ≤ w) (hh : 0 ≤ h) (e : V2 K) : Extreme2 (InRect w h) e (maxPoint2 (Rectangle.new w h).corners e) := by
  have hc : (Rectangle.new w h).corners = [⟨w / 2, h / 2⟩, ⟨-(w / 2), h / 2⟩, ⟨-(w / 2), -(h / 2)⟩, ⟨w / 2, -(h / 2)⟩] := by
    simp [Rectangle.new, Rectangle.newImpl, Rectangle.generateCorners, one_add_one_eq_two]
  obtain ⟨h1, h2⟩ := maxPoint2_spec (Rectangle.new w h).corners e (by rw [hc]; simp)
  constructor
  · have hw' : 0 ≤ w / 2 := by linarith
    have hh' : 0 ≤ h / 2 := by linarith
    rw [hc] at h1
    simp only [List.mem_cons, List.not_mem_nil, or_false] at h1
    rcases h1 with h1 | h1 | h1 | h1 <;> rw [hc, h1] <;> refine ⟨⟨?_, ?_⟩, ?_, ?_⟩ <;> simp <;> linarith
  · intro q hq
    obtain ⟨x, hx, ex⟩ := signed_corner (w / 2) e.x
    obtain ⟨y, hy, ey⟩ := signed_corner (h / 2) e.y
    have h3 := h2 ⟨x, y⟩ (by rw [hc]; rcases hx with rfl | rfl <;> rcases hy with rfl | rfl <;> simp)
    refine le_trans ?_ h3
    have := mul_le_abs_mul (b := e.x) hq.1.1 hq.1.2
    have := mul_le_abs_mul (b := e.y) hq.2.1 hq.2.2
    simp only [V2.dot]; linarith

theorem box_extreme (w h l : K) (hw : 0 ≤ w) (hh : 0 ≤ h) (hl : 0 ≤ l) (e : V3 K) :
    Extreme3 (InBox w h l) e (maxPoint3 (Cuboid.new w h l).corners e) := by
  have hc : (Cuboid.new w h l).corners = [⟨w / 2, h / 2, l / 2⟩, ⟨-(w / 2), h / 2, l / 2⟩, ⟨-(w / 2), -(h / 2), l / 2⟩, ⟨w / 2, -(h / 2), l / 2⟩,
      ⟨w / 2, h / 2, -(l / 2)⟩, ⟨-(w / 2), h / 2, -(l / 2)⟩, ⟨-(w / 2), -(h / 2), -(l / 2)⟩, ⟨w / 2, -(h / 2), -(l / 2)⟩] := by
    simp [Cuboid.new, Cuboid.newImpl, Cuboid.generateCorners, one_add_one_eq_two]
  obtain ⟨h1, h2⟩ := maxPoint3_spec (Cuboid.new w h l).corners e (by rw [hc]; simp)
  constructor
  · have hw' : 0 ≤ w / 2 := by linarith
    have hh' : 0 ≤ h / 2 := by linarith
    have hl' : 0 ≤ l / 2 := by linarith
    rw [hc] at h1
    simp only [List.mem_cons, List.not_mem_nil, or_false] at h1
    rcases h1 with h1 | h1 | h1 | h1 | h1 | h1 | h1 | h1 <;> rw [hc, h1] <;> refine ⟨⟨?_, ?_⟩, ⟨?_, ?_⟩, ?_, ?_⟩ <;> simp <;> linarith
  · intro q hq
    obtain ⟨x, hx, ex⟩ := signed_corner (w / 2) e.x
    obtain ⟨y, hy, ey⟩ := signed_corner (h / 2) e.y
    obtain ⟨z, hz, ez⟩ := signed_corner (l / 2) e.z
    have h3 := h2 ⟨x, y, z⟩ (by
      rw [hc]; rcases hx with rfl | rfl <;> rcases hy with rfl | rfl <;> rcases hz with rfl | rfl <;> simp)
    refine le_trans ?_ h3
    have := mul_le_abs_mul (b := e.x) hq.1.1 hq.1.2
    have := mul_le_abs_mul (b := e.y) hq.2.1.1 hq.2.1.2
    have := mul_le_abs_mul (b := e.z) hq.2.2.1 hq.2.2.2
    simp only [V3.dot]; linarith

theorem quad_extreme (w h : K) (hw : 0 ≤ w) (hh : 0 ≤ h) (e : V3 K) : Extreme3 (InQuad w h) e (maxPoint3 (Quad.new w h).corners e) := by
  have hc : (Quad.new w h).corners = [⟨w / 2, h / 2, 0⟩, ⟨-(w / 2), h / 2, 0⟩, ⟨-(w / 2), -(h / 2), 0⟩, ⟨w / 2, -(h / 2), 0⟩] := by
    simp [Quad.new, Quad.newImpl, Quad.generateCorners, one_add_one_eq_two]
  obtain ⟨h1, h2⟩ := maxPoint3_spec (Quad.new w h).corners e (by rw [hc]; simp)
  constructor
  · have hw' : 0 ≤ w / 2 := by linarith
    have hh' : 0 ≤ h / 2 := by linarith
    rw [hc] at h1
    simp only [List.mem_cons, List.not_mem_nil, or_false] at h1
    rcases h1 with h1 | h1 | h1 | h1 <;> rw [hc, h1] <;> refine ⟨⟨?_, ?_⟩, ⟨?_, ?_⟩, rfl⟩ <;> simp <;> linarith
  · intro q hq
    obtain ⟨x, hx, ex⟩ := signed_corner (w / 2) e.x
    obtain ⟨y, hy, ey⟩ := signed_corner (h / 2) e.y
    have h3 := h2 ⟨x, y, 0⟩ (by rw [hc]; rcases hx with rfl | rfl <;> rcases hy with rfl | rfl <;> simp)
    refine le_trans ?_ h3
    have := mul_le_abs_mul (b := e.x) hq.1.1 hq.1.2
    have := mul_le_abs_mul (b := e.y) hq.2.1.1 hq.2.1.2
    simp only [V3.dot, hq.2.2]; linarith

theorem line_extreme (l : Line2 K) (e : V2 K) : Extreme2 l.Mem e (lineLocal l e) := by
  unfold lineLocal
  have hlin : ∀ u, (l.at u).dot e = l.origin.dot e + u * e.dot (l.dest - l.origin) := by
    intro u; simp [Line2.at, V2.dot]; ring
  have h1 : l.dest = l.at 1 := by ext <;> simp [Line2.at]
  have h0 : l.origin = l.at 0 := by ext <;> simp [Line2.at]
  have hd : l.dest.dot e = l.origin.dot e + e.dot (l.dest - l.origin) := by simp [V2.dot]; ring
  split
  · next h =>
    refine ⟨⟨1, by norm_num, le_rfl, h1⟩, ?_⟩
    rintro q ⟨u, u0, u1, rfl⟩
    rw [hlin, hd]; nlinarith
  · next h =>
    refine ⟨⟨0, le_rfl, by norm_num, h0⟩, ?_⟩
    rintro q ⟨u, u0, u1, rfl⟩
    rw [hlin]; nlinarith

/-- C46, rectangles and squares: every direction, every similarity transform. -/
theorem c46_rectangle (w h : K) (hw : 0 ≤ w) (hh : 0 ≤ h) {T : Tr (V2 K)} (hT : Similar2 T) (d : V2 K) :
    (∃ p, (Rectangle.new w h).supportPoint T d = .ok p ∧ Extreme2 (Image T (InRect w h)) d p) ∧
    (∃ p, (Square.new w).supportPoint T d = .ok p ∧ Extreme2 (Image T (InRect w w)) d p) :=
  ⟨support_extreme2 _ _ hT d fun e _ => rect_extreme w h hw hh e, support_extreme2 _ _ hT d fun e _ => rect_extreme w w hw hw e⟩

/-- C46, cuboids and cubes. -/
theorem c46_cuboid (w h l : K) (hw : 0 ≤ w) (hh : 0 ≤ h) (hl : 0 ≤ l) {T : Tr (V3 K)} (hT : Similar3 T) (d : V3 K) :
    (∃ p, (Cuboid.new w h l).supportPoint T d = .ok p ∧ Extreme3 (Image T (InBox w h l)) d p) ∧
    (∃ p, (Cube.new w).supportPoint T d = .ok p ∧ Extreme3 (Image T (InBox w w w)) d p) :=
  ⟨support_extreme3 _ _ hT d fun e _ => box_extreme w h l hw hh hl e, support_extreme3 _ _ hT d fun e _ => box_extreme w w w hw hw hw e⟩

/-- C46, quads. -/
theorem c46_quad (w h : K) (hw : 0 ≤ w) (hh : 0 ≤ h) {T : Tr (V3 K)} (hT : Similar3 T) (d : V3 K) :
    ∃ p, (Quad.new w h).supportPoint T d = .ok p ∧ Extreme3 (Image T (InQuad w h)) d p :=
  support_extreme3 _ _ hT d fun e _ => quad_extreme w h hw hh e

/-- C46, line segments. -/
theorem c46_line (l : Line2 K) {T : Tr (V2 K)} (hT : Similar2 T) (d : V2 K) :
    ∃ p, lineSupport l T d = .ok p ∧ Extreme2 (Image T l.Mem) d p :=
  support_extreme2 _ _ hT d fun e _ => line_extreme l e

end

/-! ## Round shapes -/

theorem disc_extreme (r : ℝ) (hr : 0 ≤ r) {e : V2 ℝ} (he : e ≠ 0) : Extreme2 (InDisc r) e (e.normalizeTo r) := by
  have hp := V2.norm_pos he
  refine ⟨le_of_eq (V2.norm_normalizeTo he hr), fun q hq => ?_⟩
  have h1 : (e.normalizeTo r).dot e = r * e.norm := by
    have : (e.normalizeTo r).dot e = (r / e.norm) * e.dot e := by simp [V2.normalizeTo, V2.dot]; ring
    rw [this, ← V2.norm_sq]; field_simp
  rw [h1]
  exact le_trans (V2.cauchy q e) (mul_le_mul_of_nonneg_right hq hp.le)

theorem normalizeTo_dot3 (r : ℝ) {e : V3 ℝ} (he : e ≠ 0) : (e.normalizeTo r).dot e = r * e.norm := by
  have hp := V3.norm_pos he
  have : (e.normalizeTo r).dot e = (r / e.norm) * e.dot e := by simp [V3.normalizeTo, V3.dot]; ring
  rw [this, ← V3.norm_sq]; field_simp

theorem ball_extreme (r : ℝ) (hr : 0 ≤ r) {e : V3 ℝ} (he : e ≠ 0) : Extreme3 (InBall r) e (e.normalizeTo r) := by
  have hp := V3.norm_pos he
  refine ⟨le_of_eq (V3.norm_normalizeTo he hr), fun q hq => ?_⟩
  rw [normalizeTo_dot3 r he]
  exact le_trans (V3.cauchy q e) (mul_le_mul_of_nonneg_right hq hp.le)

theorem signum_mul (nz : Bool) (y : ℝ) : signum nz y * y = |y| := by
  unfold signum signNeg
  split
  · next h =>
    simp at h
    rcases h with h | ⟨h, -⟩
    · rw [abs_of_neg h]; ring
    · rw [h]; simp
  · next h =>
    simp at h
    rw [abs_of_nonneg h.1]; ring

theorem signum_cases (nz : Bool) (y : ℝ) : signum nz y = 1 ∨ signum nz y = -1 := by
  unfold signum; split <;> simp

theorem capsule_extreme (s : Capsule) (hh : 0 ≤ s.halfHeight) (hr : 0 ≤ s.radius) (nz : Bool) {e : V3 ℝ} (he : e ≠ 0) :
    Extreme3 (InCapsule s.halfHeight s.radius) e (s.local nz e) := by
  have hp := V3.norm_pos he
  constructor
  · refine ⟨signum nz e.y * s.halfHeight, ?_, ?_, ?_⟩
    · rcases signum_cases nz e.y with h | h <;> rw [h] <;> linarith
    · rcases signum_cases nz e.y with h | h <;> rw [h] <;> linarith
    · have : s.local nz e - ⟨0, signum nz e.y * s.halfHeight, 0⟩ = e.normalizeTo s.radius := by ext <;> simp [Capsule.local]
      rw [this, V3.norm_normalizeTo he hr]
  · rintro q ⟨t, t1, t2, hq⟩
    have h1 := V3.cauchy (q - ⟨0, t, 0⟩) e
    have h2 : q.dot e = (q - ⟨0, t, 0⟩).dot e + t * e.y := by simp [V3.dot]; ring
    have h3 : (s.local nz e).dot e = signum nz e.y * e.y * s.halfHeight + (e.normalizeTo s.radius).dot e := by
      simp [Capsule.local, V3.dot]; ring
    rw [h2, h3, signum_mul, normalizeTo_dot3 _ he]
    have h4 := mul_le_abs_mul (b := e.y) t1 t2
    have h5 : (q - ⟨0, t, 0⟩).norm * e.norm ≤ s.radius * e.norm := mul_le_mul_of_nonneg_right hq hp.le
    linarith

theorem cylinder_extreme (s : Cylinder) (hh : 0 ≤ s.halfHeight) (hr : 0 ≤ s.radius) (nz : Bool) (e : V3 ℝ) :
    Extreme3 (InCylinder s.halfHeight s.radius) e (s.local nz e) := by
  -- the horizontal part of the result
  obtain ⟨g, hg, hm, hgd⟩ : ∃ g : V3 ℝ, g.y = 0 ∧ g.dot g ≤ s.radius * s.radius ∧
      (s.local nz e = ⟨g.x, signum nz e.y * s.halfHeight, g.z⟩ ∧
        ∀ q : V3 ℝ, q.x * q.x + q.z * q.z ≤ s.radius * s.radius → q.x * e.x + q.z * e.z ≤ g.x * e.x + g.z * e.z) := by
    have hfin : ∀ g : V3 ℝ, (if signNeg nz e.y then (⟨g.x, -s.halfHeight, g.z⟩ : V3 ℝ) else ⟨g.x, s.halfHeight, g.z⟩) =
        ⟨g.x, signum nz e.y * s.halfHeight, g.z⟩ := by
      intro g; unfold signum; split <;> simp
    by_cases h0 : (⟨e.x, 0, e.z⟩ : V3 ℝ).dot ⟨e.x, 0, e.z⟩ = 0
    · refine ⟨0, rfl, by simp [V3.dot]; positivity, ?_, ?_⟩
      · simp only [Cylinder.local, if_pos h0]; exact hfin 0
      · intro q _
        have hx : e.x = 0 := by
          simp [V3.dot] at h0; nlinarith [mul_self_nonneg e.x, mul_self_nonneg e.z]
        have hz : e.z = 0 := by
          simp [V3.dot] at h0; nlinarith [mul_self_nonneg e.x, mul_self_nonneg e.z]
        simp [hx, hz]
    · have hne : (⟨e.x, 0, e.z⟩ : V3 ℝ) ≠ 0 := by rintro h; rw [h] at h0; simp [V3.dot] at h0
      have hn := V3.norm_normalize hne
      have hnn : (⟨e.x, 0, e.z⟩ : V3 ℝ).normalize ≠ 0 := by
        intro h; rw [h, (V3.norm_eq_zero _).2 rfl] at hn; norm_num at hn
      refine ⟨(⟨e.x, 0, e.z⟩ : V3 ℝ).normalize * s.radius, by simp [V3.normalize], ?_, ?_, ?_⟩
      · have h1 := V3.norm_sq (⟨e.x, 0, e.z⟩ : V3 ℝ).normalize
        rw [hn] at h1
        have : ((⟨e.x, 0, e.z⟩ : V3 ℝ).normalize * s.radius).dot ((⟨e.x, 0, e.z⟩ : V3 ℝ).normalize * s.radius) =
          (⟨e.x, 0, e.z⟩ : V3 ℝ).normalize.dot (⟨e.x, 0, e.z⟩ : V3 ℝ).normalize * (s.radius * s.radius) := by simp [V3.dot]; ring
        rw [this, ← h1]; linarith
      · simp only [Cylinder.local, if_neg h0, if_neg hnn]; exact hfin _
      · intro q hq
        have hc := V3.cauchy ⟨q.x, 0, q.z⟩ ⟨e.x, 0, e.z⟩
        have hq' : (⟨q.x, 0, q.z⟩ : V3 ℝ).norm ≤ s.radius := by rw [V3.norm_le_iff _ hr]; simpa [V3.dot] using hq
        have h1 := normalizeTo_dot3 s.radius hne
        have h2 : (⟨q.x, 0, q.z⟩ : V3 ℝ).norm * (⟨e.x, 0, e.z⟩ : V3 ℝ).norm ≤ s.radius * (⟨e.x, 0, e.z⟩ : V3 ℝ).norm :=
          mul_le_mul_of_nonneg_right hq' (V3.norm_nonneg _)
        have h3 : ((⟨e.x, 0, e.z⟩ : V3 ℝ).normalizeTo s.radius).dot ⟨e.x, 0, e.z⟩ =
            ((⟨e.x, 0, e.z⟩ : V3 ℝ).normalize * s.radius).x * e.x + ((⟨e.x, 0, e.z⟩ : V3 ℝ).normalize * s.radius).z * e.z := by
          simp [V3.dot, V3.normalizeTo, V3.normalize]; ring
        have h4 : (⟨q.x, 0, q.z⟩ : V3 ℝ).dot ⟨e.x, 0, e.z⟩ = q.x * e.x + q.z * e.z := by simp [V3.dot]
        rw [h4] at hc
        rw [← h3, h1]
        linarith
  obtain ⟨hl, hx⟩ := hgd
  rw [hl]
  constructor
  · refine ⟨?_, ?_⟩
    · rcases signum_cases nz e.y with h | h <;> simp only [h] <;> constructor <;> linarith
    · simpa [V3.dot, hg] using hm
  · intro q hq
    have h1 := hx q hq.2
    have h2 := mul_le_abs_mul (b := e.y) hq.1.1 hq.1.2
    have h3 := signum_mul nz e.y
    simp only [V3.dot]
    have : signum nz e.y * s.halfHeight * e.y = s.halfHeight * |e.y| := by rw [← h3]; ring
    rw [this]
    linarith

/-- C46, circles (direction not zero; `Decomposed` with any rotation, translation and non-zero scale). -/
theorem c46_circle (s : Circle) (hr : 0 ≤ s.radius) (D : Dec2 ℝ) (ho : D.rot.Orthogonal) (hs : D.scale ≠ 0) (d : V2 ℝ) (hd : d ≠ 0) :
    ∃ p, s.supportPoint D.tr d = .ok p ∧ Extreme2 (Image D.tr (InDisc s.radius)) d p := by
  rw [Circle.supportPoint, supportRound_eq _ _ _ fun e h => dec_inv_ne2 D ho hs hd h]
  exact support_extreme2 _ _ (D.similar hs) d fun _ h => disc_extreme s.radius hr (dec_inv_ne2 D ho hs hd h)

/-- C46, spheres. -/
theorem c46_sphere (s : Ball) (hr : 0 ≤ s.radius) (D : Dec3 ℝ) (ho : D.rot.Orthogonal) (hs : D.scale ≠ 0) (d : V3 ℝ) (hd : d ≠ 0) :
    ∃ p, s.supportPoint D.tr d = .ok p ∧ Extreme3 (Image D.tr (InBall s.radius)) d p := by
  rw [Ball.supportPoint, supportRound_eq _ _ _ fun e h => dec_inv_ne3 D ho hs hd h]
  exact support_extreme3 _ _ (D.similar hs) d fun _ h => ball_extreme s.radius hr (dec_inv_ne3 D ho hs hd h)

/-- C46, capsules. -/
theorem c46_capsule (s : Capsule) (hh : 0 ≤ s.halfHeight) (hr : 0 ≤ s.radius) (nz : Bool) (D : Dec3 ℝ) (ho : D.rot.Orthogonal)
    (hs : D.scale ≠ 0) (d : V3 ℝ) (hd : d ≠ 0) :
    ∃ p, s.supportPoint nz D.tr d = .ok p ∧ Extreme3 (Image D.tr (InCapsule s.halfHeight s.radius)) d p := by
  rw [Capsule.supportPoint, supportRound_eq _ _ _ fun e h => dec_inv_ne3 D ho hs hd h]
  exact support_extreme3 _ _ (D.similar hs) d fun _ h => capsule_extreme s hh hr nz (dec_inv_ne3 D ho hs hd h)

/-- C46, cylinders. -/
theorem c46_cylinder (s : Cylinder) (hh : 0 ≤ s.halfHeight) (hr : 0 ≤ s.radius) (nz : Bool) {T : Tr (V3 ℝ)} (hT : Similar3 T) (d : V3 ℝ) :
    ∃ p, s.supportPoint nz T d = .ok p ∧ Extreme3 (Image T (InCylinder s.halfHeight s.radius)) d p :=
  support_extreme3 _ _ hT d fun e _ => cylinder_extreme s hh hr nz e

/-- A rotated, scaled and moved rectangle and its support point. -/
example : (⟨2, ⟨⟨3 / 5, 4 / 5⟩, ⟨-4 / 5, 3 / 5⟩⟩, ⟨1, 1⟩⟩ : Dec2 ℚ).rot.Orthogonal ∧
    (Rectangle.new 2 4 : Rectangle ℚ).supportPoint (⟨2, ⟨⟨3 / 5, 4 / 5⟩, ⟨-4 / 5, 3 / 5⟩⟩, ⟨1, 1⟩⟩ : Dec2 ℚ).tr ⟨1, 2⟩ =
      .ok ⟨-1, 5⟩ := by
  unfold M2.Orthogonal
  decide +kernel

/-! ## Bounding boxes -/

section
variable {K : Type} [Field K] [LinearOrder K] [IsStrictOrderedRing K]

theorem mem_new2 {a b p : V2 K} (h : (a.x ≤ p.x ∧ p.x ≤ b.x) ∧ (a.y ≤ p.y ∧ p.y ≤ b.y)) : (Aabb2.new a b).Mem p := by
  obtain ⟨⟨h1, h2⟩, h3, h4⟩ := h
  simp only [Aabb2.Mem, Aabb2.new, pmin, pmax, if_pos (le_trans h1 h2), if_pos (le_trans h3 h4)]
  refine ⟨⟨h1, ?_⟩, h3, ?_⟩
  · split <;> order
  · split <;> order
theorem mem_new3 {a b p : V3 K} (h : (a.x ≤ p.x ∧ p.x ≤ b.x) ∧ (a.y ≤ p.y ∧ p.y ≤ b.y) ∧ (a.z ≤ p.z ∧ p.z ≤ b.z)) : (Aabb3.new a b).Mem p := by
  obtain ⟨⟨h1, h2⟩, ⟨h3, h4⟩, h5, h6⟩ := h
  simp only [Aabb3.Mem, Aabb3.new, pmin, pmax, if_pos (le_trans h1 h2), if_pos (le_trans h3 h4), if_pos (le_trans h5 h6)]
  refine ⟨⟨h1, ?_⟩, ⟨h3, ?_⟩, h5, ?_⟩
  · split <;> order
  · split <;> order
  · split <;> order

/-- C47: boxes computed for polytopes enclose them. -/
theorem c47_polytopes (w h l : K) :
    (∀ p, InRect w h p → (Rectangle.new w h).bound.Mem p) ∧ (∀ p, InRect w w p → (Square.new w).bound.Mem p) ∧
    (∀ p, InBox w h l p → (Cuboid.new w h l).bound.Mem p) ∧ (∀ p, InBox w w w p → (Cube.new w).bound.Mem p) ∧
    (∀ p, InQuad w h p → (Quad.new w h).bound.Mem p) ∧
    (∀ (s : Line2 K) p, s.Mem p → (lineBound s).Mem p) := by
  refine ⟨?_, ?_, ?_, ?_, ?_, ?_⟩
  · intro p hp
    apply mem_new2; simpa [Rectangle.new, Rectangle.newImpl, InRect, one_add_one_eq_two] using hp
  · intro p hp
    apply mem_new2; simpa [Square.new, Rectangle.new, Rectangle.newImpl, InRect, one_add_one_eq_two] using hp
  · intro p hp
    apply mem_new3; simpa [Cuboid.new, Cuboid.newImpl, InBox, one_add_one_eq_two] using hp
  · intro p hp
    apply mem_new3; simpa [Cube.new, Cuboid.new, Cuboid.newImpl, InBox, one_add_one_eq_two] using hp
  · intro p hp
    obtain ⟨h1, h2, h3⟩ := hp
    apply mem_new3; simpa [Quad.new, Quad.newImpl, one_add_one_eq_two, h3] using ⟨h1, h2⟩
  · rintro s p ⟨u, u0, u1, rfl⟩
    have key : ∀ a b : K, pmin a b ≤ a + (b - a) * u ∧ a + (b - a) * u ≤ pmax a b := by
      intro a b
      unfold pmin pmax
      constructor <;> split <;> nlinarith
    exact ⟨key s.origin.x s.dest.x, key s.origin.y s.dest.y⟩

/-- The computed box of a vertex list encloses the convex hull (also for the empty list: no points). -/
theorem c47_vertices2 (vs : List (V2 K)) {p : V2 K} (hp : Hull2 vs p) : (getBound2 vs).Mem p := by
  have hv := (foldl_grow2 id vs (Aabb2.zero : Aabb2 K)).2.1
  simp only [id] at hv
  change ∀ c ∈ vs, (getBound2 vs).Mem c at hv
  have key : ∀ {a b x y t : K}, 0 ≤ t → t ≤ 1 → a ≤ x → x ≤ b → a ≤ y → y ≤ b → a ≤ x + (y - x) * t ∧ x + (y - x) * t ≤ b := by
    intros; constructor <;> nlinarith
  induction hp with
  | vertex h => exact hv _ h
  | @seg p q t _ _ t0 t1 h1 h2 =>
    exact ⟨key t0 t1 h1.1.1 h1.1.2 h2.1.1 h2.1.2, key t0 t1 h1.2.1 h1.2.2 h2.2.1 h2.2.2⟩

/-- The computed box of a polyhedron encloses the convex hull of its vertices. -/
theorem c47_vertices3 (vs : List (V3 K)) {p : V3 K} (hp : Hull3 vs p) : (getBound3 vs).Mem p := by
  have hv := (foldl_grow3 id vs (Aabb3.zero : Aabb3 K)).2.1
  simp only [id] at hv
  change ∀ c ∈ vs, (getBound3 vs).Mem c at hv
  have key : ∀ {a b x y t : K}, 0 ≤ t → t ≤ 1 → a ≤ x → x ≤ b → a ≤ y → y ≤ b → a ≤ x + (y - x) * t ∧ x + (y - x) * t ≤ b := by
    intros; constructor <;> nlinarith
  induction hp with
  | vertex h => exact hv _ h
  | @seg p q t _ _ t0 t1 h1 h2 =>
    exact ⟨key t0 t1 h1.1.1 h1.1.2 h2.1.1 h2.1.2, key t0 t1 h1.2.1.1 h1.2.1.2 h2.2.1.1 h2.2.1.2, key t0 t1 h1.2.2.1 h1.2.2.2 h2.2.2.1 h2.2.2.2⟩

/-- The box of a vertex list also always contains the local origin (the fold starts from the zero box, `src/primitive/util.rs:37`), so it
is not the tightest box. -/
theorem c47_origin (vs : List (V2 K)) (ws : List (V3 K)) : (getBound2 vs).Mem 0 ∧ (getBound3 ws).Mem 0 := by
  constructor
  · have h := (foldl_grow2 id vs (Aabb2.zero : Aabb2 K)).1
    simp only [id] at h
    change (getBound2 vs).contains _ = true at h
    exact (c26_contains2 _ _ (by simp [Aabb2.zero, Aabb2.new, Aabb2.Valid])).1 h _ (by simp [Aabb2.zero, Aabb2.new, Aabb2.Mem])
  · have h := (foldl_grow3 id ws (Aabb3.zero : Aabb3 K)).1
    simp only [id] at h
    change (getBound3 ws).contains _ = true at h
    exact (c26_contains3 _ _ (by simp [Aabb3.zero, Aabb3.new, Aabb3.Valid])).1 h _ (by simp [Aabb3.zero, Aabb3.new, Aabb3.Mem])

end

theorem norm_le_comp3 {p : V3 ℝ} {r : ℝ} (h : p.norm ≤ r) : (-r ≤ p.x ∧ p.x ≤ r) ∧ (-r ≤ p.y ∧ p.y ≤ r) ∧ (-r ≤ p.z ∧ p.z ≤ r) :=
  ⟨abs_le.1 (le_trans p.abs_x_le h), abs_le.1 (le_trans p.abs_y_le h), abs_le.1 (le_trans p.abs_z_le h)⟩

/-- C47: boxes computed for round shapes enclose them. -/
theorem c47_round :
    (∀ (s : Circle) p, InDisc s.radius p → s.bound.Mem p) ∧ (∀ (s : Ball) p, InBall s.radius p → s.bound.Mem p) ∧
    (∀ (s : Capsule) p, InCapsule s.halfHeight s.radius p → s.bound.Mem p) ∧
    (∀ (s : Cylinder) p, 0 ≤ s.radius → InCylinder s.halfHeight s.radius p → s.bound.Mem p) := by
  refine ⟨?_, ?_, ?_, ?_⟩
  · intro s p h
    exact mem_new2 ⟨abs_le.1 (le_trans p.abs_x_le h), abs_le.1 (le_trans p.abs_y_le h)⟩
  · intro s p h
    exact mem_new3 (norm_le_comp3 h)
  · rintro s p ⟨t, t1, t2, h⟩
    have := norm_le_comp3 h
    simp at this
    apply mem_new3
    refine ⟨this.1, ⟨?_, ?_⟩, this.2.2⟩ <;> simp only <;> linarith [this.2.1.1, this.2.1.2]
  · rintro s p hr ⟨h1, h2⟩
    apply mem_new3
    exact ⟨abs_le_of_sq_le_sq' (by nlinarith [mul_self_nonneg p.z]) hr, h1, abs_le_of_sq_le_sq' (by nlinarith [mul_self_nonneg p.x]) hr⟩

/-! ## Bounding spheres -/

/-- C48 for spheres, capsules and cylinders.  Missing: the boxes, for which it is false (`c48_false`); polyhedra are in
`Verif.Primitive.c48_polyhedron`. -/
theorem c48_round_partial :
    (∀ (s : Ball) p, InBall s.radius p → s.sphere.Mem p) ∧
    (∀ (s : Capsule) p, InCapsule s.halfHeight s.radius p → s.sphere.Mem p) ∧
    (∀ (s : Cylinder) p, InCylinder s.halfHeight s.radius p → s.sphere.Mem p) := by
  have h0 : ∀ p : V3 ℝ, p - 0 = p := by intro p; ext <;> simp
  refine ⟨?_, ?_, ?_⟩
  · intro s p h
    simpa [Sphere.Mem, Ball.sphere, h0, InBall] using h
  · rintro s p ⟨t, t1, t2, h⟩
    have h1 := V3.norm_add_le (p - ⟨0, t, 0⟩) ⟨0, t, 0⟩
    have h2 : p - ⟨0, t, 0⟩ + ⟨0, t, 0⟩ = p := by ext <;> simp
    have h3 : (⟨0, t, 0⟩ : V3 ℝ).norm = |t| := by simp [V3.norm, V3.dot, Real.sqrt_mul_self_eq_abs]
    have h4 : |t| ≤ s.halfHeight := abs_le.2 ⟨t1, t2⟩
    rw [h2, h3] at h1
    simp only [Sphere.Mem, Capsule.sphere, h0]
    linarith
  · rintro s p ⟨h1, h2⟩
    simp only [Sphere.Mem, Cylinder.sphere, h0]
    apply Real.sqrt_le_sqrt
    have : p.y * p.y ≤ s.halfHeight * s.halfHeight := by nlinarith [h1.1, h1.2]
    simp only [V3.dot]; linarith

/-- C48 is false for boxes: the sphere computed for a cube, a cuboid or a quad does not reach the corners. -/
theorem c48_false :
    (∃ p, InBox (2 : ℝ) 2 2 p ∧ ¬ (Cuboid.new (2 : ℝ) 2 2).sphere.Mem p ∧ ¬ (Cube.new (2 : ℝ)).sphere.Mem p) ∧
    (∃ p, InQuad (2 : ℝ) 2 p ∧ ¬ (Quad.new (2 : ℝ) 2).sphere.Mem p) := by
  constructor
  · refine ⟨⟨1, 1, 1⟩, by norm_num [InBox], ?_, ?_⟩ <;>
    · simp only [Cube.sphere, Cube.sphereRadius, Cube.new, Cuboid.sphere, Cuboid.sphereRadius, Cuboid.new, Cuboid.newImpl]
      rw [Sphere.mem_iff (by norm_num)]
      norm_num [V3.dot]
  · refine ⟨⟨1, 1, 0⟩, by norm_num [InQuad], ?_⟩
    simp only [Quad.sphere, Quad.sphereRadius, Quad.new, Quad.newImpl]
    rw [Sphere.mem_iff (by norm_num)]
    norm_num [V3.dot]

/-- C48 fails for every box with at least two positive sides (so the defect is not a special case): the corner is outside. -/
theorem c48_always_false (w h l : ℝ) (hw : 0 < w) (hh : 0 < h) (hl : 0 ≤ l) : ∃ p, InBox w h l p ∧ ¬ (Cuboid.new w h l).sphere.Mem p := by
  refine ⟨⟨w / 2, h / 2, l / 2⟩, ⟨⟨by linarith, le_rfl⟩, ⟨by linarith, le_rfl⟩, by simp; linarith, le_rfl⟩, ?_⟩
  simp only [Cuboid.sphere, Cuboid.sphereRadius, Cuboid.new, Cuboid.newImpl, one_add_one_eq_two, V3.div_x, V3.div_y, V3.div_z]
  have h0 : 0 ≤ max (max (w / 2) (h / 2)) (l / 2) := le_max_of_le_right (by linarith)
  rw [Sphere.mem_iff h0]
  simp only [V3.dot, V3.sub_x, V3.sub_y, V3.sub_z, V3.zero_x, V3.zero_y, V3.zero_z, sub_zero, not_le]
  rcases max_choice (max (w / 2) (h / 2)) (l / 2) with e | e <;> rw [e]
  · rcases max_choice (w / 2) (h / 2) with e | e <;> rw [e] <;> nlinarith
  · nlinarith

/-- C48, the box case that does hold: spheres are centred, so the sphere reaches every face centre. -/
theorem c48_box_axes_partial (w h l : ℝ) (p : V3 ℝ) (hp : InBox w h l p)
    (haxis : (p.y = 0 ∧ p.z = 0) ∨ (p.x = 0 ∧ p.z = 0) ∨ (p.x = 0 ∧ p.y = 0)) : (Cuboid.new w h l).sphere.Mem p := by
  simp only [Cuboid.sphere, Cuboid.sphereRadius, Cuboid.new, Cuboid.newImpl, one_add_one_eq_two, V3.div_x, V3.div_y, V3.div_z, Sphere.Mem]
  have h0 : p - 0 = p := by ext <;> simp
  rw [h0]
  obtain ⟨⟨a1, a2⟩, ⟨b1, b2⟩, c1, c2⟩ := hp
  rcases haxis with ⟨e1, e2⟩ | ⟨e1, e2⟩ | ⟨e1, e2⟩ <;> simp only [V3.norm, V3.dot, e1, e2, mul_zero, add_zero, zero_add, Real.sqrt_mul_self_eq_abs]
  · exact le_max_of_le_left (le_max_of_le_left (abs_le.2 ⟨a1, a2⟩))
  · exact le_max_of_le_left (le_max_of_le_right (abs_le.2 ⟨b1, b2⟩))
  · exact le_max_of_le_right (abs_le.2 ⟨c1, c2⟩)

/-- The same for quads: the points on the two axes are in the sphere, and nothing beyond the longer half side is. -/
theorem c48_quad_axes_partial (w h : ℝ) : (∀ p, InQuad w h p → (p.y = 0 ∨ p.x = 0) → (Quad.new w h).sphere.Mem p) ∧
    ∀ p, (Quad.new w h).sphere.Mem p → p.norm ≤ w / 2 ∨ p.norm ≤ h / 2 := by
  have h0 : ∀ p : V3 ℝ, p - 0 = p := fun p => by ext <;> simp
  simp only [Quad.sphere, Quad.sphereRadius, Quad.new, Quad.newImpl, one_add_one_eq_two, Sphere.Mem, h0]
  constructor
  · rintro p ⟨⟨a1, a2⟩, ⟨b1, b2⟩, e3⟩ (e | e) <;> simp only [V3.norm, V3.dot, e, e3, mul_zero, add_zero, zero_add, Real.sqrt_mul_self_eq_abs]
    · exact le_max_of_le_left (abs_le.2 ⟨a1, a2⟩)
    · exact le_max_of_le_right (abs_le.2 ⟨b1, b2⟩)
  · intro p hp
    exact le_max_iff.1 hp

/-! ## Rays against box-like primitives: C61 -/

section
variable {K : Type} [Field K] [LinearOrder K] [IsStrictOrderedRing K]

/-- Specification: the open rectangle. -/
def InsideRect (w h : K) (p : V2 K) : Prop := (-(w / 2) < p.x ∧ p.x < w / 2) ∧ (-(h / 2) < p.y ∧ p.y < h / 2)
/-- Specification: the open box. -/
def InsideBox (w h l : K) (p : V3 K) : Prop :=
  (-(w / 2) < p.x ∧ p.x < w / 2) ∧ (-(h / 2) < p.y ∧ p.y < h / 2) ∧ (-(l / 2) < p.z ∧ p.z < l / 2)
/-- Specification: the quad without its border. -/
def InsideQuad (w h : K) (p : V3 K) : Prop := (-(w / 2) < p.x ∧ p.x < w / 2) ∧ (-(h / 2) < p.y ∧ p.y < h / 2) ∧ p.z = 0

theorem rect_bound (w h : K) (hw : 0 ≤ w) (hh : 0 ≤ h) :
    (Rectangle.new w h).bound = ⟨⟨-(w / 2), -(h / 2)⟩, ⟨w / 2, h / 2⟩⟩ := by
  have h1 : -(w / 2) ≤ w / 2 := by linarith
  have h2 : -(h / 2) ≤ h / 2 := by linarith
  simp [Rectangle.bound, Rectangle.new, Rectangle.newImpl, Aabb2.new, one_add_one_eq_two, h1, h2]
theorem box_bound (w h l : K) (hw : 0 ≤ w) (hh : 0 ≤ h) (hl : 0 ≤ l) :
    (Cuboid.new w h l).bound = ⟨⟨-(w / 2), -(h / 2), -(l / 2)⟩, ⟨w / 2, h / 2, l / 2⟩⟩ := by
  have h1 : -(w / 2) ≤ w / 2 := by linarith
  have h2 : -(h / 2) ≤ h / 2 := by linarith
  have h3 : -(l / 2) ≤ l / 2 := by linarith
  simp [Cuboid.bound, Cuboid.new, Cuboid.newImpl, Aabb3.new, one_add_one_eq_two, h1, h2, h3]
theorem quad_bound (w h : K) (hw : 0 ≤ w) (hh : 0 ≤ h) :
    (Quad.new w h).bound = ⟨⟨-(w / 2), -(h / 2), 0⟩, ⟨w / 2, h / 2, 0⟩⟩ := by
  have h1 : -(w / 2) ≤ w / 2 := by linarith
  have h2 : -(h / 2) ≤ h / 2 := by linarith
  simp [Quad.bound, Quad.new, Quad.newImpl, Aabb3.new, one_add_one_eq_two, h1, h2]

/-- C61, rectangles: a hit is a point of the ray in the rectangle, the first one if the ray starts outside; a ray through the interior
hits; both tests agree. -/
theorem c61_rectangle (w h : K) (hw : 0 ≤ w) (hh : 0 ≤ h) (r : Ray2 K) (hd : r.direction ≠ 0) :
    ((Rectangle.new w h).intersectsRay r = ((Rectangle.new w h).intersectionRay r).isSome) ∧
    (∀ q, (Rectangle.new w h).intersectionRay r = some q → ∃ t, 0 ≤ t ∧ q = (r.at t).toExt ∧ InRect w h (r.at t) ∧
      (¬ InRect w h r.origin → ∀ u, 0 ≤ u → InRect w h (r.at u) → t ≤ u)) ∧
    ((∃ t, 0 ≤ t ∧ InsideRect w h (r.at t)) → (Rectangle.new w h).intersectsRay r = true) := by
  have hb := rect_bound w h hw hh
  obtain ⟨h1, h2, h3⟩ := c30_ray_aabb2 r (Rectangle.new w h).bound (by
    rw [hb]; exact ⟨by simp; linarith, by simp; linarith⟩) hd
  refine ⟨h2, ?_, ?_⟩
  · intro q hq
    obtain ⟨t, ht, rfl, hf, -⟩ := h3 q hq
    rw [hb] at ht hf
    exact ⟨t, ht.1, rfl, ht.2.1, fun ho u hu hs => hf ho u ⟨hu, hs, ht.2.2⟩⟩
  · rintro ⟨t, t0, ht⟩
    unfold Rectangle.intersectsRay
    rw [h2, Option.isSome_iff_ne_none, ne_eq, h1, not_not, hb]
    refine ⟨t, t0, ⟨⟨ht.1.1.le, ht.1.2.le⟩, ht.2.1.le, ht.2.2.le⟩, ?_, ?_⟩
    · intro e
      have := ht.1
      simp only [Ray2.at, V2.add_x, V2.mul_x, e, zero_mul, add_zero] at this
      exact this
    · intro e
      have := ht.2
      simp only [Ray2.at, V2.add_y, V2.mul_y, e, zero_mul, add_zero] at this
      exact this

/-- C61, squares. -/
theorem c61_square (w : K) (hw : 0 ≤ w) (r : Ray2 K) (hd : r.direction ≠ 0) :
    ((Square.new w).intersectsRay r = ((Square.new w).intersectionRay r).isSome) ∧
    (∀ q, (Square.new w).intersectionRay r = some q → ∃ t, 0 ≤ t ∧ q = (r.at t).toExt ∧ InRect w w (r.at t) ∧
      (¬ InRect w w r.origin → ∀ u, 0 ≤ u → InRect w w (r.at u) → t ≤ u)) ∧
    ((∃ t, 0 ≤ t ∧ InsideRect w w (r.at t)) → (Square.new w).intersectsRay r = true) :=
  c61_rectangle w w hw hw r hd

/-- C61, cuboids of positive size. -/
theorem c61_cuboid (nz : V3 Bool) (w h l : K) (hw : 0 < w) (hh : 0 < h) (hl : 0 < l) (r : Ray3 K) (hd : r.direction ≠ 0) :
    ((Cuboid.new w h l).intersectsRay nz r = ((Cuboid.new w h l).intersectionRay nz r).isSome) ∧
    (∀ q, (Cuboid.new w h l).intersectionRay nz r = some q → ∃ t, 0 ≤ t ∧ q = (r.at t).toExt ∧ InBox w h l (r.at t) ∧
      (¬ InBox w h l r.origin → ∀ u, 0 ≤ u → InBox w h l (r.at u) → t ≤ u)) ∧
    ((∃ t, 0 ≤ t ∧ InsideBox w h l (r.at t)) → (Cuboid.new w h l).intersectsRay nz r = true) := by
  have hb := box_bound w h l hw.le hh.le hl.le
  have p1 : -(w / 2) < w / 2 := by linarith
  have p2 : -(h / 2) < h / 2 := by linarith
  have p3 : -(l / 2) < l / 2 := by linarith
  obtain ⟨h1, h2, h3⟩ := c31_ray_aabb3 nz r (Cuboid.new w h l).bound (by rw [hb]; exact ⟨p1.le, p2.le, p3.le⟩) hd
    (by rw [hb]; exact fun _ => p1) (by rw [hb]; exact fun _ => p2) (by rw [hb]; exact fun _ => p3)
  refine ⟨h2, ?_, ?_⟩
  · intro q hq
    obtain ⟨t, ht, rfl, hf, -⟩ := h3 q hq
    rw [hb] at ht hf
    exact ⟨t, ht.1, rfl, ht.2.1, fun ho u hu hs => hf ho u ⟨hu, hs, ht.2.2⟩⟩
  · rintro ⟨t, t0, ht⟩
    change r.intersectsAabb nz (Cuboid.new w h l).bound = true
    rw [h2, Option.isSome_iff_ne_none, ne_eq, h1, not_not, hb]
    refine ⟨t, t0, ⟨⟨ht.1.1.le, ht.1.2.le⟩, ⟨ht.2.1.1.le, ht.2.1.2.le⟩, ht.2.2.1.le, ht.2.2.2.le⟩, ?_, ?_, ?_⟩
    · intro e
      have := ht.1
      simp only [Ray3.at, V3.add_x, V3.mul_x, e, zero_mul, add_zero] at this
      exact this
    · intro e
      have := ht.2.1
      simp only [Ray3.at, V3.add_y, V3.mul_y, e, zero_mul, add_zero] at this
      exact this
    · intro e
      have := ht.2.2
      simp only [Ray3.at, V3.add_z, V3.mul_z, e, zero_mul, add_zero] at this
      exact this

/-- C61, cubes. -/
theorem c61_cube (nz : V3 Bool) (w : K) (hw : 0 < w) (r : Ray3 K) (hd : r.direction ≠ 0) :
    ((Cube.new w).intersectsRay nz r = ((Cube.new w).intersectionRay nz r).isSome) ∧
    (∀ q, (Cube.new w).intersectionRay nz r = some q → ∃ t, 0 ≤ t ∧ q = (r.at t).toExt ∧ InBox w w w (r.at t) ∧
      (¬ InBox w w w r.origin → ∀ u, 0 ≤ u → InBox w w w (r.at u) → t ≤ u)) ∧
    ((∃ t, 0 ≤ t ∧ InsideBox w w w (r.at t)) → (Cube.new w).intersectsRay nz r = true) :=
  c61_cuboid nz w w w hw hw hw r hd

/-- C61, quads of positive size (rays inside the plane of the quad included). -/
theorem c61_quad (nz : V3 Bool) (w h : K) (hw : 0 < w) (hh : 0 < h) (r : Ray3 K) (hd : r.direction ≠ 0) :
    ((Quad.new w h).intersectsRay nz r = ((Quad.new w h).intersectionRay nz r).isSome) ∧
    (∀ q, (Quad.new w h).intersectionRay nz r = some q → ∃ t, 0 ≤ t ∧ q = (r.at t).toExt ∧ InQuad w h (r.at t) ∧
      (¬ InQuad w h r.origin → ∀ u, 0 ≤ u → InQuad w h (r.at u) → t ≤ u)) ∧
    ((∃ t, 0 ≤ t ∧ InsideQuad w h (r.at t)) → (Quad.new w h).intersectsRay nz r = true) := by
  have hb := quad_bound w h hw.le hh.le
  have p1 : -(w / 2) < w / 2 := by linarith
  have p2 : -(h / 2) < h / 2 := by linarith
  have hmem : ∀ p, (Quad.new w h).bound.Mem p ↔ InQuad w h p := by
    intro p
    rw [hb]
    exact ⟨fun m => ⟨m.1, m.2.1, le_antisymm m.2.2.2 m.2.2.1⟩, fun m => ⟨m.1, m.2.1, m.2.2.ge, m.2.2.le⟩⟩
  obtain ⟨h1, h2, h3⟩ := c31_ray_flat3 nz r (Quad.new w h).bound (by rw [hb]; exact ⟨p1.le, p2.le, le_rfl⟩) hd
  refine ⟨h2, ?_, ?_⟩
  · intro q hq
    obtain ⟨t, ht, rfl, hf, -⟩ := h3 q hq
    simp only [hmem] at hf
    exact ⟨t, ht.1, rfl, (hmem _).1 ht.2.1, hf⟩
  · rintro ⟨t, t0, ht⟩
    unfold Quad.intersectsRay
    rw [h2, Option.isSome_iff_ne_none, ne_eq, h1, not_not]
    refine ⟨t, t0, (hmem _).2 ⟨⟨ht.1.1.le, ht.1.2.le⟩, ⟨ht.2.1.1.le, ht.2.1.2.le⟩, ht.2.2⟩, ?_, ?_, ?_⟩
    · intro e _
      have := ht.1
      simp only [Ray3.at, V3.add_x, V3.mul_x, e, zero_mul, add_zero] at this
      rw [hb]; exact this
    · intro e _
      have := ht.2.1
      simp only [Ray3.at, V3.add_y, V3.mul_y, e, zero_mul, add_zero] at this
      rw [hb]; exact this
    · intro _ e
      rw [hb] at e
      exact absurd e (lt_irrefl _)

/-- A ray in the plane of a quad. -/
example (nz : V3 Bool) : (Quad.new (2 : ℚ) 2).intersectionRay nz ⟨⟨-3, 0, 0⟩, ⟨1, 0, 0⟩⟩ = some (V3.toExt ⟨-1, 0, 0⟩) := by
  obtain ⟨x, y, z⟩ := nz
  cases x <;> cases y <;> cases z <;> decide +kernel

/-- C61, which rays hit exactly: those with a point in the shape, where a ray parallel to a face has to run strictly inside of it (2D). -/
theorem c61_exact2 (w h : K) (hw : 0 ≤ w) (hh : 0 ≤ h) (r : Ray2 K) (hd : r.direction ≠ 0) :
    (Rectangle.new w h).intersectsRay r = true ↔ ∃ t, 0 ≤ t ∧ InRect w h (r.at t) ∧
      (r.direction.x = 0 → -(w / 2) < r.origin.x ∧ r.origin.x < w / 2) ∧ (r.direction.y = 0 → -(h / 2) < r.origin.y ∧ r.origin.y < h / 2) := by
  have hb := rect_bound w h hw hh
  obtain ⟨h1, h2, -⟩ := c30_ray_aabb2 r (Rectangle.new w h).bound (by
    rw [hb]; exact ⟨by simp; linarith, by simp; linarith⟩) hd
  unfold Rectangle.intersectsRay
  rw [h2, Option.isSome_iff_ne_none, ne_eq, h1, not_not, hb]
  rfl

/-- C61, which rays hit exactly (3D; `quad` has no extent along z, where only the rays in its plane matter). -/
theorem c61_exact3 (nz : V3 Bool) (w h l : K) (hw : 0 < w) (hh : 0 < h) (hl : 0 < l) (r : Ray3 K) (hd : r.direction ≠ 0) :
    ((Cuboid.new w h l).intersectsRay nz r = true ↔ ∃ t, 0 ≤ t ∧ InBox w h l (r.at t) ∧
      (r.direction.x = 0 → -(w / 2) < r.origin.x ∧ r.origin.x < w / 2) ∧ (r.direction.y = 0 → -(h / 2) < r.origin.y ∧ r.origin.y < h / 2) ∧
      (r.direction.z = 0 → -(l / 2) < r.origin.z ∧ r.origin.z < l / 2)) ∧
    ((Quad.new w h).intersectsRay nz r = true ↔ ∃ t, 0 ≤ t ∧ InQuad w h (r.at t) ∧
      (r.direction.x = 0 → -(w / 2) < r.origin.x ∧ r.origin.x < w / 2) ∧ (r.direction.y = 0 → -(h / 2) < r.origin.y ∧ r.origin.y < h / 2)) := by
  have p1 : -(w / 2) < w / 2 := by linarith
  have p2 : -(h / 2) < h / 2 := by linarith
  have p3 : -(l / 2) < l / 2 := by linarith
  constructor
  · have hb := box_bound w h l hw.le hh.le hl.le
    obtain ⟨h1, h2, -⟩ := c31_ray_aabb3 nz r (Cuboid.new w h l).bound (by rw [hb]; exact ⟨p1.le, p2.le, p3.le⟩) hd
      (by rw [hb]; exact fun _ => p1) (by rw [hb]; exact fun _ => p2) (by rw [hb]; exact fun _ => p3)
    change r.intersectsAabb nz (Cuboid.new w h l).bound = true ↔ _
    rw [h2, Option.isSome_iff_ne_none, ne_eq, h1, not_not, hb]
    rfl
  · have hb := quad_bound w h hw.le hh.le
    obtain ⟨h1, h2, -⟩ := c31_ray_flat3 nz r (Quad.new w h).bound (by rw [hb]; exact ⟨p1.le, p2.le, le_rfl⟩) hd
    unfold Quad.intersectsRay
    rw [h2, Option.isSome_iff_ne_none, ne_eq, h1, not_not, hb]
    refine exists_congr fun t => and_congr_right fun _ => ?_
    simp only [Aabb3.Mem, InQuad, lt_irrefl, false_implies, implies_true, and_true, p1, p2, true_implies]
    constructor
    · rintro ⟨⟨a, b, c⟩, d, e⟩; exact ⟨⟨a, b, le_antisymm c.2 c.1⟩, d, e⟩
    · rintro ⟨⟨a, b, c⟩, d, e⟩; exact ⟨⟨a, b, c.ge, c.le⟩, d, e⟩

end

/-! ## Rays against circles and spheres: C37 for the primitives -/

/-- the ray tests of the primitive sphere are those of the bounding sphere around the origin -/
theorem Ball.rays (s : Ball) (r : Ray3 ℝ) : s.intersectionRay r = s.sphere.intersectionRay r ∧ s.intersectsRay r = s.sphere.intersectsRay r := by
  have e : (⟨-r.origin.x, -r.origin.y, -r.origin.z⟩ : V3 ℝ) = (0 : V3 ℝ) - r.origin := by ext <;> simp
  constructor
  · unfold Ball.intersectionRay; rw [e]; rfl
  · unfold Ball.intersectsRay; rw [e]; rfl

/-- C37 for `primitive::Sphere`: unit direction, origin outside. -/
theorem c37_ball_partial (s : Ball) (hr : 0 ≤ s.radius) (r : Ray3 ℝ) (hd : r.direction.norm = 1) (hout : ¬ InBall s.radius r.origin) :
    (s.intersectionRay r = none ↔ ¬ ∃ t, 0 ≤ t ∧ InBall s.radius (r.at t)) ∧
    (∀ p, s.intersectionRay r = some p → ∃ t, 0 ≤ t ∧ p = r.at t ∧ p.norm = s.radius ∧ ∀ u, 0 ≤ u → InBall s.radius (r.at u) → t ≤ u) ∧
    (s.intersectsRay r = (s.intersectionRay r).isSome) := by
  have h0 : ∀ p : V3 ℝ, p - 0 = p := by intro p; ext <;> simp
  have hm : ∀ p, s.sphere.Mem p ↔ InBall s.radius p := by intro p; simp [Sphere.Mem, Ball.sphere, h0, InBall]
  obtain ⟨h1, h2⟩ := c37_first_hit_partial s.sphere hr r hd (by rwa [hm])
  obtain ⟨e1, e2⟩ := Ball.rays s r
  rw [e1, e2]
  simp only [hm] at h1 h2
  have hs : ∀ p, s.sphere.OnSurface p ↔ p.norm = s.radius := by intro p; simp [Sphere.OnSurface, Ball.sphere, h0]
  simp only [hs] at h2
  refine ⟨h1, h2, ?_⟩
  simp only [Sphere.intersectsRay, Sphere.intersectionRay]
  split
  · rfl
  · split
    · next h => simp only [Option.isSome_none, decide_eq_false_iff_not, not_le]; exact h
    · next h => simp only [Option.isSome_some, decide_eq_true_eq]; exact not_lt.1 h

/-- C37 for `Circle` (2D): unit direction, origin outside. -/
theorem c37_circle_partial (s : Circle) (hr : 0 ≤ s.radius) (r : Ray2 ℝ) (hd : r.direction.norm = 1) (hout : ¬ InDisc s.radius r.origin) :
    (s.intersectionRay r = none ↔ ¬ ∃ t, 0 ≤ t ∧ InDisc s.radius (r.at t)) ∧
    (∀ p, s.intersectionRay r = some p → ∃ t, 0 ≤ t ∧ p = r.at t ∧ p.norm = s.radius ∧ ∀ u, 0 ≤ u → InDisc s.radius (r.at u) → t ≤ u) ∧
    (s.intersectsRay r = (s.intersectionRay r).isSome) := by
  -- embed in the plane z = 0
  let R : Ray3 ℝ := ⟨⟨r.origin.x, r.origin.y, 0⟩, ⟨r.direction.x, r.direction.y, 0⟩⟩
  have hn : ∀ x y : ℝ, (⟨x, y, 0⟩ : V3 ℝ).norm = (⟨x, y⟩ : V2 ℝ).norm := by intro x y; simp [V3.norm, V2.norm, V3.dot, V2.dot]
  have hat : ∀ t : ℝ, R.at t = ⟨(r.at t).x, (r.at t).y, 0⟩ := by intro t; ext <;> simp [R, Ray3.at, Ray2.at]
  have hm : ∀ t, InBall s.radius (R.at t) ↔ InDisc s.radius (r.at t) := by intro t; rw [hat, InBall, hn]; rfl
  have e1 : (⟨s.radius⟩ : Ball).intersectionRay R = (s.intersectionRay r).map fun p => ⟨p.x, p.y, 0⟩ := by
    have hl : ((⟨-R.origin.x, -R.origin.y, -R.origin.z⟩ : V3 ℝ).dot R.direction) = (⟨-r.origin.x, -r.origin.y⟩ : V2 ℝ).dot r.direction := by
      simp [R, V3.dot, V2.dot]
    have hl2 : ((⟨-R.origin.x, -R.origin.y, -R.origin.z⟩ : V3 ℝ).dot ⟨-R.origin.x, -R.origin.y, -R.origin.z⟩) =
        (⟨-r.origin.x, -r.origin.y⟩ : V2 ℝ).dot ⟨-r.origin.x, -r.origin.y⟩ := by
      simp [R, V3.dot, V2.dot]
    simp only [Ball.intersectionRay, Circle.intersectionRay, hl, hl2]
    split
    · rfl
    · split
      · rfl
      · simp [R]; ext <;> simp
  obtain ⟨h1, h2, -⟩ := c37_ball_partial ⟨s.radius⟩ hr R (by rw [← hd]; exact hn _ _) (by
    intro h; apply hout; rw [InDisc, ← hn]; exact h)
  rw [e1] at h1 h2
  simp only [Option.map_eq_none_iff, hm] at h1
  refine ⟨h1, ?_, ?_⟩
  · intro p hp
    obtain ⟨t, t0, hpt, hs, hf⟩ := h2 ⟨p.x, p.y, 0⟩ (by rw [hp]; rfl)
    simp only [hm] at hf
    refine ⟨t, t0, ?_, ?_, hf⟩
    · rw [hat] at hpt
      simp at hpt
      ext
      · exact hpt.1
      · exact hpt.2
    · rw [hn] at hs; exact hs
  · simp only [Circle.intersectsRay, Circle.intersectionRay]
    split
    · rfl
    · split
      · next h => simp only [Option.isSome_none, decide_eq_false_iff_not, not_le]; exact h
      · next h => simp only [Option.isSome_some, decide_eq_true_eq]; exact not_lt.1 h

/-- the hypotheses of the ray theorems are met by a ray that hits -/
example : (1 : ℝ) ≥ 0 ∧ (⟨⟨-3, 0⟩, ⟨1, 0⟩⟩ : Ray2 ℝ).direction.norm = 1 ∧ ¬ InDisc 1 (⟨⟨-3, 0⟩, ⟨1, 0⟩⟩ : Ray2 ℝ).origin := by
  refine ⟨by norm_num, by simp [V2.norm, V2.dot], ?_⟩
  simp only [InDisc, not_le]
  rw [V2.lt_norm_iff _ (by norm_num)]
  norm_num [V2.dot]

end Verif.Primitive
