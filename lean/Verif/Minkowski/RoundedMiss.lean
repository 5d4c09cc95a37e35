import Verif.Minkowski.Grain
import Verif.Minkowski.Gjk2Bound
/-!
# GJK in rounded arithmetic: a miss is right up to rounding (C106)

The 2D code over `Fl R` (`F64Gjk`), for any coordinates. When the run ends because a support point does not pass the origin, the two shapes overlap, in the last search direction, by no more than rounding
errors can explain. Only the last direction and the two support points matter, so the errors of the steps before do not add up.
-/
namespace Verif.Minkowski
open Verif Geom Primitive
open Verif.Dbvt (Rounding F64 binary64 Rep64 lt_over64)
set_option linter.unusedSectionVars false
noncomputable section
open Classical
variable {F : Type} [LinearOrder F] {R : Rounding F}

variable (R) in
/-- The standard model of rounded arithmetic: relative error `u` and absolute error `η` (underflow) up to `Ω`; rounding commutes with the change of sign; a difference of different numbers is not rounded to
zero. -/
structure Std (u η Ω : ℝ) : Prop where
  u0 : 0 ≤ u
  u1 : u ≤ 1 / 16
  η0 : 0 ≤ η
  η1 : η ≤ 1 / 16
  two : Rep R 2
  err : ∀ x : ℝ, |x| ≤ Ω → ∃ y, Rep R y ∧ toF R x = toF R y ∧ |y - x| ≤ u * |x| + η
  odd : ∀ x y : ℝ, |x| ≤ Ω → Rep R y → toF R x = toF R y → Rep R (-y) ∧ toF R (-x) = toF R (-y)
  sub : ∀ x y : ℝ, Rep R x → Rep R y → toF R (x - y) = toF R 0 → x = y

variable {u η Ω : ℝ}

theorem Std.fl (h : Std R u η Ω) {x X : ℝ} (hx : |x| ≤ X) (hX : X ≤ Ω) : ∃ y, Rep R y ∧ toF R x = toF R y ∧ |y - x| ≤ u * X + η := by
  obtain ⟨y, h1, h2, h3⟩ := h.err x (hx.trans hX)
  exact ⟨y, h1, h2, h3.trans (add_le_add (mul_le_mul_of_nonneg_left hx h.u0) le_rfl)⟩
theorem Std.rep_neg (h : Std R u η Ω) {x : ℝ} (hx : |x| ≤ Ω) (hr : Rep R x) : Rep R (-x) := (h.odd x x hx hr rfl).1

/-- Both components are representable. -/
def Rp (R : Rounding F) (a : V2 ℝ) : Prop := Rep R a.x ∧ Rep R a.y
/-- Both components are at most `A`. -/
def Sz (A : ℝ) (a : V2 ℝ) : Prop := |a.x| ≤ A ∧ |a.y| ≤ A
variable {a b c d v : V2 ℝ} {A B M N : ℝ}
theorem Sz.mono (h : Sz A a) (hAB : A ≤ B) : Sz B a := ⟨h.1.trans hAB, h.2.trans hAB⟩
theorem Sz.neg (h : Sz A a) : Sz A (-a) := by
  constructor
  · show |-a.x| ≤ A
    rw [abs_neg]; exact h.1
  · show |-a.y| ≤ A
    rw [abs_neg]; exact h.2
theorem Sz.nonneg (h : Sz A a) : 0 ≤ A := (abs_nonneg _).trans h.1
theorem mul_abs_le {x y A B : ℝ} (hx : |x| ≤ A) (hy : |y| ≤ B) : |x * y| ≤ A * B := by
  rw [abs_mul]
  exact mul_le_mul hx hy (abs_nonneg _) ((abs_nonneg _).trans hx)
theorem dot_abs_le (ha : Sz A a) (hb : Sz B b) : |a.dot b| ≤ 2 * (A * B) := by
  have h1 := mul_abs_le ha.1 hb.1
  have h2 := mul_abs_le ha.2 hb.2
  show |a.x * b.x + a.y * b.y| ≤ _
  have := abs_add_le (a.x * b.x) (a.y * b.y)
  linarith
theorem Rp.neg (h : Std R u η Ω) (hr : Rp R a) (hs : Sz A a) (hA : A ≤ Ω) : Rp R (-a) := ⟨h.rep_neg (hs.1.trans hA) hr.1, h.rep_neg (hs.2.trans hA) hr.2⟩

/-- The rounded dot product. -/
theorem dot_err (h : Std R u η Ω) (ra : Rp R a) (rb : Rp R b) (sa : Sz A a) (sb : Sz B b) (hΩ : 3 * (A * B) + 1 ≤ Ω) :
    ∃ r, Rep R r ∧ (toV2 R a).dot (toV2 R b) = toF R r ∧ |r - a.dot b| ≤ 5 * (u * (A * B)) + 4 * η ∧ (Rp R (-b) → Rep R (-r) ∧ (toV2 R a).dot (toV2 R (-b)) = toF R (-r)) := by
  have hP : 0 ≤ A * B := mul_nonneg sa.nonneg sb.nonneg
  set P := A * B with hPdef
  have b1 := mul_abs_le sa.1 sb.1
  have b2 := mul_abs_le sa.2 sb.2
  rw [← hPdef] at b1 b2
  obtain ⟨x1, rx1, e1, d1⟩ := h.fl b1 (by linarith)
  obtain ⟨x2, rx2, e2, d2⟩ := h.fl b2 (by linarith)
  have hu := h.u0
  have hu1 := h.u1
  have hη := h.η0
  have hη1 := h.η1
  have uP : u * P ≤ 1 / 16 * P := mul_le_mul_of_nonneg_right hu1 hP
  have uP0 : 0 ≤ u * P := mul_nonneg hu hP
  have hs : |x1 + x2| ≤ 2 * P + 2 * (u * P) + 2 * η := by
    rw [abs_le] at b1 b2 d1 d2 ⊢
    constructor <;> linarith
  obtain ⟨r, rr, e3, d3⟩ := h.fl hs (by linarith)
  have q1 : u * (2 * P + 2 * (u * P) + 2 * η) ≤ 2 * (u * P) + 1 / 8 * (u * P) + 1 / 8 * η := by
    have : u * (u * P) ≤ 1 / 16 * (u * P) := mul_le_mul_of_nonneg_right hu1 uP0
    have : u * η ≤ 1 / 16 * η := mul_le_mul_of_nonneg_right hu1 hη
    nlinarith
  refine ⟨r, rr, ?_, ?_, ?_⟩
  · show toF R a.x * toF R b.x + toF R a.y * toF R b.y = _
    rw [toF_mul ra.1 rb.1, toF_mul ra.2 rb.2, e1, e2, toF_add rx1 rx2, e3]
  · show |r - (a.x * b.x + a.y * b.y)| ≤ _
    rw [abs_le] at d1 d2 d3 ⊢
    constructor <;> linarith
  · intro rn
    have o1 := h.odd _ _ (b1.trans (by linarith)) rx1 e1
    have o2 := h.odd _ _ (b2.trans (by linarith)) rx2 e2
    have o3 := h.odd _ _ (hs.trans (by linarith)) rr e3
    refine ⟨o3.1, ?_⟩
    show toF R a.x * toF R (-b).x + toF R a.y * toF R (-b).y = _
    rw [toF_mul ra.1 rn.1, toF_mul ra.2 rn.2, show a.x * (-b).x = -(a.x * b.x) by simp, show a.y * (-b).y = -(a.y * b.y) by simp, o1.2, o2.2, toF_add o1.1 o2.1, ← o3.2]
    congr 1
    ring

/-- The rounded difference. -/
theorem sub_err (h : Std R u η Ω) (ra : Rp R a) (rb : Rp R b) (sa : Sz A a) (sb : Sz B b) (hΩ : A + B ≤ Ω) :
    ∃ c, Rp R c ∧ toV2 R a - toV2 R b = toV2 R c ∧ Sz (u * (A + B) + η) (c - (a - b)) ∧ (c = 0 → a = b) := by
  have b1 : |a.x - b.x| ≤ A + B := (abs_sub _ _).trans (add_le_add sa.1 sb.1)
  have b2 : |a.y - b.y| ≤ A + B := (abs_sub _ _).trans (add_le_add sa.2 sb.2)
  obtain ⟨x1, rx1, e1, d1⟩ := h.fl b1 hΩ
  obtain ⟨x2, rx2, e2, d2⟩ := h.fl b2 hΩ
  refine ⟨⟨x1, x2⟩, ⟨rx1, rx2⟩, ?_, ⟨d1, d2⟩, ?_⟩
  · ext
    · show toF R a.x - toF R b.x = _
      rw [toF_sub ra.1 rb.1, e1]; rfl
    · show toF R a.y - toF R b.y = _
      rw [toF_sub ra.2 rb.2, e2]; rfl
  · intro h0
    have z1 : x1 = 0 := congrArg V2.x h0
    have z2 : x2 = 0 := congrArg V2.y h0
    ext
    · exact h.sub _ _ ra.1 rb.1 (by rw [e1, z1])
    · exact h.sub _ _ ra.2 rb.2 (by rw [e2, z2])
/-- The rounded sum. -/
theorem add_err (h : Std R u η Ω) (ra : Rp R a) (rb : Rp R b) (sa : Sz A a) (sb : Sz B b) (hΩ : A + B ≤ Ω) :
    ∃ c, Rp R c ∧ toV2 R a + toV2 R b = toV2 R c ∧ Sz (u * (A + B) + η) (c - (a + b)) := by
  have b1 : |a.x + b.x| ≤ A + B := (abs_add_le _ _).trans (add_le_add sa.1 sb.1)
  have b2 : |a.y + b.y| ≤ A + B := (abs_add_le _ _).trans (add_le_add sa.2 sb.2)
  obtain ⟨x1, rx1, e1, d1⟩ := h.fl b1 hΩ
  obtain ⟨x2, rx2, e2, d2⟩ := h.fl b2 hΩ
  refine ⟨⟨x1, x2⟩, ⟨rx1, rx2⟩, ?_, ⟨d1, d2⟩⟩
  ext
  · show toF R a.x + toF R b.x = _
    rw [toF_add ra.1 rb.1, e1]; rfl
  · show toF R a.y + toF R b.y = _
    rw [toF_add ra.2 rb.2, e2]; rfl
/-- The rounded matrix times a vector. -/
theorem apply_err (h : Std R u η Ω) {m : M2 ℝ} (r0 : Rp R m.c0) (r1 : Rp R m.c1) (s0 : Sz 1 m.c0) (s1 : Sz 1 m.c1) (rv : Rp R v) (sv : Sz A v) (hΩ : 3 * A + 1 ≤ Ω) :
    ∃ w, Rp R w ∧ applyG2 (⟨toV2 R m.c0, toV2 R m.c1⟩ : M2 (Fl R)) (toV2 R v) = toV2 R w ∧ Sz (5 * (u * A) + 4 * η) (w - m.apply v) := by
  obtain ⟨x, rx, e1, d1, -⟩ := dot_err h (a := ⟨m.c0.x, m.c1.x⟩) ⟨r0.1, r1.1⟩ rv ⟨s0.1, s1.1⟩ sv (by rwa [one_mul])
  obtain ⟨y, ry, e2, d2, -⟩ := dot_err h (a := ⟨m.c0.y, m.c1.y⟩) ⟨r0.2, r1.2⟩ rv ⟨s0.2, s1.2⟩ sv (by rwa [one_mul])
  rw [one_mul] at d1 d2
  refine ⟨⟨x, y⟩, ⟨rx, ry⟩, ?_, ?_⟩
  · ext
    · exact e1
    · exact e2
  · constructor
    · exact d1
    · exact d2
theorem dot_sub_le {w w' : V2 ℝ} (hw : Sz A (w - w')) (hb : Sz B b) : |w.dot b - w'.dot b| ≤ 2 * (A * B) := by
  have := dot_abs_le hw hb
  rwa [show (w - w').dot b = w.dot b - w'.dot b by simp [V2.dot]; ring] at this

/-! ## Support points -/

/-- The point found by `get_max_point` in rounded arithmetic is the farthest up to the error of the dot product. -/
theorem maxPoint_near {vs : List (V2 ℝ)} (hne : vs ≠ []) {e : V2 ℝ} {ε : ℝ} (h : ∀ v ∈ vs, ∃ r, Rep R r ∧ (toV2 R v).dot (toV2 R e) = toF R r ∧ |r - v.dot e| ≤ ε) :
    ∃ v ∈ vs, maxPointG2 (vs.map (toV2 R)) (toV2 R e) = toV2 R v ∧ ∀ w ∈ vs, w.dot e ≤ v.dot e + 2 * ε := by
  have H : ∀ (l seen : List (V2 ℝ)) (p : V2 ℝ) (r : ℝ), (∀ v ∈ l, ∃ r, Rep R r ∧ (toV2 R v).dot (toV2 R e) = toF R r ∧ |r - v.dot e| ≤ ε) → Rep R r → |r - p.dot e| ≤ ε → p ∈ seen →
      (∀ w ∈ seen, ∃ q, |q - w.dot e| ≤ ε ∧ q ≤ r) →
      ∃ v ∈ seen ++ l, (l.map (toV2 R)).foldl (maxStepG2 (toV2 R e)) (toV2 R p, some (toF R r)) = (toV2 R v, ((l.map (toV2 R)).foldl (maxStepG2 (toV2 R e)) (toV2 R p, some (toF R r))).2) ∧
        ∃ q, |q - v.dot e| ≤ ε ∧ ∀ w ∈ seen ++ l, ∃ q', |q' - w.dot e| ≤ ε ∧ q' ≤ q := by
    intro l
    induction l with
    | nil =>
      intro seen p r _ _ hp hps hs
      refine ⟨p, by simpa using hps, rfl, r, hp, ?_⟩
      simpa using hs
    | cons x l ih =>
      intro seen p r hl hr hp hps hs
      obtain ⟨q, hq, eq, dq⟩ := hl x (by simp)
      have hl' : ∀ v ∈ l, ∃ r, Rep R r ∧ (toV2 R v).dot (toV2 R e) = toF R r ∧ |r - v.dot e| ≤ ε := fun v hv => hl v (List.mem_cons_of_mem _ hv)
      rw [List.map_cons, List.foldl_cons, show seen ++ x :: l = (seen ++ [x]) ++ l by simp]
      by_cases hc : toF R q > toF R r
      · have hqr := (toF_lt hr hq).1 hc
        rw [show maxStepG2 (toV2 R e) (toV2 R p, some (toF R r)) (toV2 R x) = (toV2 R x, some (toF R q)) by
          show (if (toV2 R x).dot (toV2 R e) > toF R r then _ else _) = _
          rw [eq, if_pos hc]]
        refine ih (seen ++ [x]) x q hl' hq dq (by simp) ?_
        intro w hw
        rcases List.mem_append.1 hw with hw | hw
        · obtain ⟨q', h1, h2⟩ := hs w hw
          exact ⟨q', h1, h2.trans hqr.le⟩
        · rw [List.mem_singleton] at hw
          exact ⟨q, hw ▸ dq, le_rfl⟩
      · have hqr : q ≤ r := (toF_le hq hr).1 (not_lt.1 hc)
        rw [show maxStepG2 (toV2 R e) (toV2 R p, some (toF R r)) (toV2 R x) = (toV2 R p, some (toF R r)) by
          show (if (toV2 R x).dot (toV2 R e) > toF R r then _ else _) = _
          rw [eq, if_neg hc]]
        refine ih (seen ++ [x]) p r hl' hr hp (by simp [hps]) ?_
        intro w hw
        rcases List.mem_append.1 hw with hw | hw
        · exact hs w hw
        · rw [List.mem_singleton] at hw
          exact ⟨q, hw ▸ dq, hqr⟩
  cases vs with
  | nil => exact absurd rfl hne
  | cons x l =>
    obtain ⟨r, hr, er, dr⟩ := h x (by simp)
    obtain ⟨v, hv, e1, q, hq, h2⟩ := H l [x] x r (fun v hv => h v (List.mem_cons_of_mem _ hv)) hr dr (by simp) (by
      intro w hw
      rw [List.mem_singleton] at hw
      exact ⟨r, hw ▸ dr, le_rfl⟩)
    refine ⟨v, by simpa using hv, ?_, ?_⟩
    · unfold maxPointG2
      rw [List.map_cons, List.foldl_cons, show maxStepG2 (toV2 R e) (0, none) (toV2 R x) = (toV2 R x, some (toF R r)) by
        show (toV2 R x, some ((toV2 R x).dot (toV2 R e))) = _
        rw [er]]
      rw [e1]
    · intro w hw
      obtain ⟨q', h3, h4⟩ := h2 w (by simpa using hw)
      rw [abs_le] at hq h3
      linarith

variable (R) in
/-- The placement: unit scale, a matrix of representable entries of at most 1, a representable displacement of at most `M`. -/
structure Fits2 (M : ℝ) (D : Dec2 ℝ) : Prop where
  scale : D.scale = 1
  r0 : Rp R D.rot.c0
  r1 : Rp R D.rot.c1
  s0 : Sz 1 D.rot.c0
  s1 : Sz 1 D.rot.c1
  rd : Rp R D.disp
  sd : Sz M D.disp
variable (R) in
/-- The shape: representable coordinates of at most `M`, half of the sides too; polygons with at most nine vertices. -/
def Flat2.Fits (M : ℝ) : Flat2 ℝ → Prop
  | .particle => True
  | .line l => (Rp R l.origin ∧ Sz M l.origin) ∧ (Rp R l.dest ∧ Sz M l.dest)
  | .rectangle w h => (0 ≤ w ∧ 0 ≤ h) ∧ (Rep R w ∧ Rep R h) ∧ (Rep R (w / 2) ∧ Rep R (h / 2)) ∧ (w / 2 ≤ M ∧ h / 2 ≤ M)
  | .square w => 0 ≤ w ∧ Rep R w ∧ Rep R (w / 2) ∧ w / 2 ≤ M
  | .polygon vs => vs ≠ [] ∧ vs.length < 10 ∧ ∀ v ∈ vs, Rp R v ∧ Sz M v

/-- A bound on the vertices bounds the shape. -/
theorem flat_hull {s : Flat2 ℝ} (hs : s.Fits R M) {c : V2 ℝ} {m : ℝ} (h : ∀ v ∈ Prim2.verts s.prim, v.dot c ≤ m) {p : V2 ℝ} (hp : s.prim.Points p) : p.dot c ≤ m := by
  cases s with
  | particle =>
    have hp : p = 0 := hp
    rw [hp]
    exact h 0 (by simp [Flat2.prim, Prim2.verts])
  | line l =>
    refine ((line_extreme l c).2 p hp).trans (h _ ?_)
    unfold lineLocal
    simp only [Flat2.prim, Prim2.verts]
    split <;> simp
  | rectangle w k => exact ((rect_extreme w k hs.1.1 hs.1.2 c).2 p hp).trans (h _ (maxPoint2_spec _ c (by simp [Flat2.prim, Prim2.verts, Rectangle.new, Rectangle.newImpl, Rectangle.generateCorners])).1)
  | square w => exact ((rect_extreme w w hs.1 hs.1 c).2 p hp).trans (h _ (maxPoint2_spec _ c (by simp [Flat2.prim, Prim2.verts, Square.new, Rectangle.new, Rectangle.newImpl, Rectangle.generateCorners])).1)
  | polygon vs => exact hull2_le h hp

theorem corners_near (h : Std R u η Ω) {w k : ℝ} (rw' : Rep R w) (rk : Rep R k) (rw2 : Rep R (w / 2)) (rk2 : Rep R (k / 2)) (w0 : 0 ≤ w) (k0 : 0 ≤ k) (wM : w / 2 ≤ M) (kM : k / 2 ≤ M) (hM : M ≤ Ω) :
    cornersG (⟨toF R w, toF R k⟩ : V2 (Fl R)) = (Rectangle.new w k).corners.map (toV2 R) ∧ (∀ v ∈ (Rectangle.new w k).corners, Rp R v ∧ Sz M v) ∧ (Rectangle.new w k).corners ≠ [] := by
  have e2 : (1 : Fl R) + 1 = toF R 2 := by
    rw [← toF_one, toF_add rep_one rep_one]
    norm_num
  have a1 : |w / 2| ≤ M := by rwa [abs_of_nonneg (by linarith)]
  have a2 : |k / 2| ≤ M := by rwa [abs_of_nonneg (by linarith)]
  have n1 := h.rep_neg (a1.trans hM) rw2
  have n2 := h.rep_neg (a2.trans hM) rk2
  have b1 : |-(w / 2)| ≤ M := by rwa [abs_neg]
  have b2 : |-(k / 2)| ≤ M := by rwa [abs_neg]
  have ec : (Rectangle.new w k).corners = [⟨w / 2, k / 2⟩, ⟨-(w / 2), k / 2⟩, ⟨-(w / 2), -(k / 2)⟩, ⟨w / 2, -(k / 2)⟩] := by
    norm_num [Rectangle.new, Rectangle.newImpl, Rectangle.generateCorners]
  refine ⟨?_, ?_, ?_⟩
  · rw [ec]
    unfold cornersG
    dsimp only [V2.div_x, V2.div_y]
    rw [e2, toF_div rw' h.two, toF_div rk h.two, toF_neg rw2, toF_neg rk2]
    rfl
  · rw [ec]
    intro v hv
    simp only [List.mem_cons, List.not_mem_nil, or_false] at hv
    rcases hv with rfl | rfl | rfl | rfl
    · exact ⟨⟨rw2, rk2⟩, a1, a2⟩
    · exact ⟨⟨n1, rk2⟩, b1, a2⟩
    · exact ⟨⟨n1, n2⟩, b1, b2⟩
    · exact ⟨⟨rw2, n2⟩, a1, b2⟩
  · rw [ec]
    simp

/-- The local support point in rounded arithmetic: a vertex that is the farthest up to rounding. -/
theorem local_near (h : Std R u η Ω) {s : Flat2 ℝ} (hs : s.Fits R M) (hM : 1 ≤ M) {e : V2 ℝ} (re : Rp R e) (se : Sz B e) (hΩ : 9 * (B * M) + 1 ≤ Ω) (hMΩ : 4 * M ≤ Ω) :
    ∃ v ∈ Prim2.verts s.prim, Rp R v ∧ Sz M v ∧ (s.toFl R).localG (toV2 R e) = toV2 R v ∧
      ∀ w ∈ Prim2.verts s.prim, w.dot e ≤ v.dot e + (20 * (u * (M * B)) + 8 * η + 2 * (η * B)) := by
  have hB := se.nonneg
  have hu := h.u0
  have hu1 := h.u1
  have hη := h.η0
  have hη1 := h.η1
  have hMB : 0 ≤ M * B := mul_nonneg (by linarith) hB
  have huMB : 0 ≤ u * (M * B) := mul_nonneg hu hMB
  have hηB : 0 ≤ η * B := mul_nonneg hη hB
  have hmax : ∀ (vs : List (V2 ℝ)), vs ≠ [] → (∀ v ∈ vs, Rp R v ∧ Sz M v) → ∃ v ∈ vs, Rp R v ∧ Sz M v ∧ maxPointG2 (vs.map (toV2 R)) (toV2 R e) = toV2 R v ∧
      ∀ w ∈ vs, w.dot e ≤ v.dot e + (20 * (u * (M * B)) + 8 * η + 2 * (η * B)) := by
    intro vs hne hv
    obtain ⟨v, hv', e1, h1⟩ := maxPoint_near (R := R) hne (e := e) (ε := 5 * (u * (M * B)) + 4 * η) (by
      intro v hv'
      obtain ⟨r, a, b, c, -⟩ := dot_err h (hv v hv').1 re (hv v hv').2 se (by linarith)
      exact ⟨r, a, b, c⟩)
    refine ⟨v, hv', (hv v hv').1, (hv v hv').2, e1, fun w hw => (h1 w hw).trans ?_⟩
    linarith
  cases s with
  | particle =>
    refine ⟨0, by simp [Flat2.prim, Prim2.verts], ⟨rep_zero, rep_zero⟩, ⟨by simp; linarith, by simp; linarith⟩, toV2_zero.symm, ?_⟩
    intro w hw
    have : w = 0 := by simpa [Flat2.prim, Prim2.verts] using hw
    subst this
    linarith
  | line l =>
    obtain ⟨⟨ro, so⟩, rd, sd⟩ := hs
    obtain ⟨c, rc, ec, dc, -⟩ := sub_err h rd ro sd so (by linarith)
    have sc : Sz (3 * M) c := by
      have q : u * (M + M) ≤ 1 / 16 * (M + M) := mul_le_mul_of_nonneg_right hu1 (by linarith)
      constructor
      · have h1 := dc.1
        have h2 := sd.1
        have h3 := so.1
        have : (c - (l.dest - l.origin)).x = c.x - (l.dest.x - l.origin.x) := rfl
        rw [this] at h1
        rw [abs_le] at h1 h2 h3 ⊢
        constructor <;> linarith
      · have h1 := dc.2
        have h2 := sd.2
        have h3 := so.2
        have : (c - (l.dest - l.origin)).y = c.y - (l.dest.y - l.origin.y) := rfl
        rw [this] at h1
        rw [abs_le] at h1 h2 h3 ⊢
        constructor <;> linarith
    obtain ⟨r, rr, er, dr, -⟩ := dot_err h re rc se sc (by linarith)
    have dd := dot_sub_le dc se
    have ex : (l.dest - l.origin).dot e = l.dest.dot e - l.origin.dot e := by simp [V2.dot]; ring
    have ey : c.dot e = e.dot c := by simp [V2.dot]; ring
    rw [ex, ey] at dd
    have el : ((Flat2.line l).toFl R).localG (toV2 R e) = if toF R r ≥ 0 then toV2 R l.dest else toV2 R l.origin := by
      show (if (toV2 R e).dot (toV2 R l.dest - toV2 R l.origin) ≥ 0 then _ else _) = _
      rw [ec, er]
    by_cases hr : (0 : ℝ) ≤ r
    · have : toF R r ≥ 0 := by
        rw [← toF_zero]
        exact (toF_le rep_zero rr).2 hr
      refine ⟨l.dest, by simp [Flat2.prim, Prim2.verts], rd, sd, by rw [el, if_pos this], ?_⟩
      intro w hw
      have hw : w = l.origin ∨ w = l.dest := by simpa [Flat2.prim, Prim2.verts] using hw
      rw [abs_le] at dd dr
      rcases hw with rfl | rfl
      · linarith
      · linarith
    · have : ¬ (toF R r ≥ 0) := by
        rw [← toF_zero]
        exact fun h => hr ((toF_le rep_zero rr).1 h)
      refine ⟨l.origin, by simp [Flat2.prim, Prim2.verts], ro, so, by rw [el, if_neg this], ?_⟩
      intro w hw
      have hw : w = l.origin ∨ w = l.dest := by simpa [Flat2.prim, Prim2.verts] using hw
      rw [abs_le] at dd dr
      rcases hw with rfl | rfl
      · linarith
      · linarith
  | rectangle w k =>
    obtain ⟨⟨w0, k0⟩, ⟨rw', rk⟩, ⟨rw2, rk2⟩, wM, kM⟩ := hs
    obtain ⟨e1, h1, h2⟩ := corners_near h rw' rk rw2 rk2 w0 k0 wM kM (by linarith)
    obtain ⟨v, a, b, c, d, f⟩ := hmax _ h2 h1
    refine ⟨v, a, b, c, ?_, f⟩
    show maxPointG2 (cornersG (⟨toF R w, toF R k⟩ : V2 (Fl R))) _ = _
    rw [e1, d]
  | square w =>
    obtain ⟨w0, rw', rw2, wM⟩ := hs
    obtain ⟨e1, h1, h2⟩ := corners_near h rw' rw' rw2 rw2 w0 w0 wM wM (by linarith)
    obtain ⟨v, a, b, c, d, f⟩ := hmax _ h2 h1
    refine ⟨v, a, b, c, ?_, f⟩
    show maxPointG2 (cornersG (⟨toF R w, toF R w⟩ : V2 (Fl R))) _ = _
    rw [e1, d]
  | polygon vs =>
    obtain ⟨v, a, b, c, d, f⟩ := hmax vs hs.1 hs.2.2
    exact ⟨v, a, b, c, d, f⟩

theorem scale_one (D : Dec2 ℝ) (hs : D.scale = 1) (rv : Rp R v) : toV2 R v * (decF R D).scale = toV2 R v ∧ toV2 R v / (decF R D).scale = toV2 R v ∧ (decF R D).scale ≠ 0 := by
  have e : (decF R D).scale = toF R 1 := by
    show toF R D.scale = _
    rw [hs]
  rw [e]
  refine ⟨?_, ?_, ?_⟩
  · ext
    · show toF R v.x * toF R 1 = _
      rw [toF_mul rv.1 rep_one, mul_one]; rfl
    · show toF R v.y * toF R 1 = _
      rw [toF_mul rv.2 rep_one, mul_one]; rfl
  · ext
    · show toF R v.x / toF R 1 = _
      rw [toF_div rv.1 rep_one, div_one]; rfl
    · show toF R v.y / toF R 1 = _
      rw [toF_div rv.2 rep_one, div_one]; rfl
  · rw [← toF_zero]
    exact fun h => one_ne_zero ((toF_inj rep_one rep_zero).1 h)

theorem sz_sub {A B : ℝ} (h1 : Sz A (a - b)) (h2 : Sz B b) : Sz (A + B) a := by
  constructor
  · have := abs_add_le (a.x - b.x) b.x
    rw [sub_add_cancel] at this
    exact this.trans (add_le_add h1.1 h2.1)
  · have := abs_add_le (a.y - b.y) b.y
    rw [sub_add_cancel] at this
    exact this.trans (add_le_add h1.2 h2.2)
theorem apply_sz {m : M2 ℝ} (s0 : Sz 1 m.c0) (s1 : Sz 1 m.c1) (sv : Sz A v) : Sz (2 * A) (m.apply v) := by
  have h1 := dot_abs_le (a := ⟨m.c0.x, m.c1.x⟩) ⟨s0.1, s1.1⟩ sv
  have h2 := dot_abs_le (a := ⟨m.c0.y, m.c1.y⟩) ⟨s0.2, s1.2⟩ sv
  rw [one_mul] at h1 h2
  exact ⟨h1, h2⟩

/-- The transform of a point in rounded arithmetic. -/
theorem point_near (h : Std R u η Ω) {D : Dec2 ℝ} (hD : Fits2 R M D) (hM : 1 ≤ M) (rv : Rp R v) (sv : Sz M v) (hΩ : 4 * M ≤ Ω) :
    ∃ w, Rp R w ∧ Sz (5 * M) w ∧ pointG2 (decF R D) (toV2 R v) = toV2 R w ∧ Sz (9 * (u * M) + 5 * η) (w - D.tr.point v) := by
  have hu := h.u0
  have hu1 := h.u1
  have hη := h.η0
  have hη1 := h.η1
  have uM : u * M ≤ 1 / 16 * M := mul_le_mul_of_nonneg_right hu1 (by linarith)
  have uM0 : 0 ≤ u * M := mul_nonneg hu (by linarith)
  obtain ⟨w1, rw1, e1, d1⟩ := apply_err h hD.r0 hD.r1 hD.s0 hD.s1 rv sv (by linarith)
  have s1 : Sz (3 * M) w1 := (sz_sub d1 (apply_sz hD.s0 hD.s1 sv)).mono (by linarith)
  obtain ⟨w, rw', e2, d2⟩ := add_err h rw1 hD.rd s1 hD.sd (by linarith)
  have e : D.tr.point v = D.rot.apply v + D.disp := by
    show D.rot.apply (v * D.scale) + D.disp = _
    rw [hD.scale, show v * (1 : ℝ) = v by ext <;> simp]
  have dw : Sz (9 * (u * M) + 5 * η) (w - D.tr.point v) := by
    rw [e]
    constructor
    · have h1 := d1.1
      have h2 := d2.1
      show |w.x - ((D.rot.apply v).x + D.disp.x)| ≤ _
      rw [show (w1 - D.rot.apply v).x = w1.x - (D.rot.apply v).x from rfl] at h1
      rw [show (w - (w1 + D.disp)).x = w.x - (w1.x + D.disp.x) from rfl] at h2
      rw [abs_le] at h1 h2 ⊢
      constructor <;> linarith
    · have h1 := d1.2
      have h2 := d2.2
      show |w.y - ((D.rot.apply v).y + D.disp.y)| ≤ _
      rw [show (w1 - D.rot.apply v).y = w1.y - (D.rot.apply v).y from rfl] at h1
      rw [show (w - (w1 + D.disp)).y = w.y - (w1.y + D.disp.y) from rfl] at h2
      rw [abs_le] at h1 h2 ⊢
      constructor <;> linarith
  refine ⟨w, rw', ?_, ?_, dw⟩
  · refine (sz_sub dw (B := 3 * M) ?_).mono (by linarith)
    rw [e]
    have h1 := apply_sz hD.s0 hD.s1 sv
    have h2 := hD.sd
    constructor
    · refine (abs_add_le _ _).trans ?_
      linarith [h1.1, h2.1]
    · refine (abs_add_le _ _).trans ?_
      linarith [h1.2, h2.2]
  · unfold pointG2
    rw [(scale_one D hD.scale rv).1]
    show applyG2 (⟨toV2 R D.rot.c0, toV2 R D.rot.c1⟩ : M2 (Fl R)) (toV2 R v) + toV2 R D.disp = _
    rw [e1, e2]

/-- The vertices are points of the shape. -/
theorem flat_verts {s : Flat2 ℝ} (hs : s.Fits R M) {v : V2 ℝ} (hv : v ∈ Prim2.verts s.prim) : s.prim.Points v := by
  cases s with
  | particle =>
    show v = 0
    simpa [Flat2.prim, Prim2.verts] using hv
  | line l =>
    have hw : v = l.origin ∨ v = l.dest := by simpa [Flat2.prim, Prim2.verts] using hv
    rcases hw with rfl | rfl
    · exact ⟨0, le_rfl, by norm_num, by ext <;> simp [Line2.at]⟩
    · exact ⟨1, by norm_num, le_rfl, by ext <;> simp [Line2.at]⟩
  | rectangle w k => exact rect_verts hs.1.1 hs.1.2 v hv
  | square w => exact rect_verts hs.1 hs.1 v hv
  | polygon vs => exact Hull2.vertex hv
/-- **The support point in rounded arithmetic**: it answers, and no point of the shape is farther by more than rounding errors. -/
theorem support_near (h : Std R u η Ω) {s : Flat2 ℝ} (hs : s.Fits R M) {D : Dec2 ℝ} (hD : Fits2 R M D) (hM : 1 ≤ M) (rd : Rp R d) (sd : Sz N d) (hΩ : 64 * (M * (N + 1)) ≤ Ω) :
    ∃ w, Rp R w ∧ Sz (5 * M) w ∧ (s.toFl R).supportG (decF R D) (toV2 R d) = .ok (toV2 R w) ∧
      (∃ p, Image D.tr s.prim.Points p ∧ Sz (9 * (u * M) + 5 * η) (w - p)) ∧
      ∀ p, Image D.tr s.prim.Points p → p.dot d ≤ w.dot d + 128 * (u * (M * N) + η * (M + N)) := by
  have hu := h.u0
  have hu1 := h.u1
  have hη := h.η0
  have hη1 := h.η1
  have hN := sd.nonneg
  have hMN : 0 ≤ M * N := mul_nonneg (by linarith) hN
  have hNMN : N ≤ M * N := by nlinarith
  have uN : u * N ≤ 1 / 16 * N := mul_le_mul_of_nonneg_right hu1 hN
  have uN0 : 0 ≤ u * N := mul_nonneg hu hN
  have t0 : Rp R ⟨D.rot.c0.x, D.rot.c1.x⟩ := ⟨hD.r0.1, hD.r1.1⟩
  have t1 : Rp R ⟨D.rot.c0.y, D.rot.c1.y⟩ := ⟨hD.r0.2, hD.r1.2⟩
  obtain ⟨e, re, ee, de⟩ := apply_err h (m := D.rot.transpose) t0 t1 ⟨hD.s0.1, hD.s1.1⟩ ⟨hD.s0.2, hD.s1.2⟩ rd sd (by linarith)
  have sT : Sz (2 * N) (D.rot.transpose.apply d) := apply_sz (m := D.rot.transpose) ⟨hD.s0.1, hD.s1.1⟩ ⟨hD.s0.2, hD.s1.2⟩ sd
  have se : Sz (3 * N + 4 * η) e := (sz_sub de sT).mono (by linarith)
  have i1 : invVectorG2 (decF R D) (toV2 R d) = some (toV2 R e) := by
    unfold invVectorG2
    rw [if_neg (scale_one D hD.scale rd).2.2, (scale_one D hD.scale rd).2.1]
    exact congrArg some ee
  have hbig : 9 * ((3 * N + 4 * η) * M) + 1 ≤ Ω := by
    have : η * M ≤ 1 / 16 * M := mul_le_mul_of_nonneg_right hη1 (by linarith)
    nlinarith
  have h4 : 4 * M ≤ Ω := by nlinarith
  obtain ⟨v, hv, rv, sv, el, hmax⟩ := local_near h hs hM re se hbig h4
  obtain ⟨w, rw', sw, ew, dw⟩ := point_near h hD hM rv sv h4
  refine ⟨w, rw', sw, ?_, ⟨_, ⟨v, flat_verts hs hv, rfl⟩, dw⟩, ?_⟩
  · rw [supportG_eq _ _ i1, el, ew]
  · rintro p ⟨p0, hp0, rfl⟩
    have key : p0.dot (D.rot.transpose.apply d) ≤ v.dot (D.rot.transpose.apply d) + ((20 * (u * (M * (3 * N + 4 * η))) + 8 * η + 2 * (η * (3 * N + 4 * η))) + 4 * ((5 * (u * N) + 4 * η) * M)) := by
      refine flat_hull hs (fun w hw => ?_) hp0
      have sw : Sz M w := by
        revert hw
        cases s with
        | particle =>
          intro hw
          have : w = 0 := by simpa [Flat2.prim, Prim2.verts] using hw
          subst this
          exact ⟨by simp; linarith, by simp; linarith⟩
        | line l =>
          intro hw
          have hw : w = l.origin ∨ w = l.dest := by simpa [Flat2.prim, Prim2.verts] using hw
          rcases hw with rfl | rfl
          · exact hs.1.2
          · exact hs.2.2
        | rectangle a b => exact fun hw => ((corners_near h hs.2.1.1 hs.2.1.2 hs.2.2.1.1 hs.2.2.1.2 hs.1.1 hs.1.2 hs.2.2.2.1 hs.2.2.2.2 (by linarith)).2.1 w hw).2
        | square a => exact fun hw => ((corners_near h hs.2.1 hs.2.1 hs.2.2.1 hs.2.2.1 hs.1 hs.1 hs.2.2.2 hs.2.2.2 (by linarith)).2.1 w hw).2
        | polygon vs => exact fun hw => (hs.2.2 w hw).2
      have h1 := hmax w hw
      have h2 := dot_sub_le de sw
      have h3 := dot_sub_le de sv
      rw [abs_le] at h2 h3
      rw [show ∀ a b : V2 ℝ, a.dot b = b.dot a from fun a b => by simp [V2.dot]; ring] at h1
      rw [show v.dot e = e.dot v by simp [V2.dot]; ring] at h1
      rw [show ∀ a b : V2 ℝ, a.dot b = b.dot a from fun a b => by simp [V2.dot]; ring]
      rw [show v.dot (D.rot.transpose.apply d) = (D.rot.transpose.apply d).dot v by simp [V2.dot]; ring]
      linarith
    have e1 : ∀ x : V2 ℝ, (D.tr.point x).dot d = x.dot (D.rot.transpose.apply d) + D.disp.dot d := by
      intro x
      show (D.rot.apply (x * D.scale) + D.disp).dot d = _
      rw [hD.scale]
      simp [M2.apply, M2.transpose, V2.dot]
      ring
    have h5 := dot_sub_le dw sd
    rw [abs_le] at h5
    rw [e1]
    rw [e1] at h5
    have q1 : u * (M * η) ≤ 1 / 16 * (M * η) := mul_le_mul_of_nonneg_right hu1 (mul_nonneg (by linarith) hη)
    have q2 : η * η ≤ 1 / 16 * η := mul_le_mul_of_nonneg_right hη1 hη
    have q3 : η * 1 ≤ η * M := mul_le_mul_of_nonneg_left hM hη
    have q4 : 0 ≤ u * (M * N) := mul_nonneg hu hMN
    have q5 : 0 ≤ η * N := mul_nonneg hη hN
    have q6 : 0 ≤ η * M := mul_nonneg hη (by linarith)
    linarith

/-! ## The run -/

/-- The larger of the components. -/
def size2 (d : V2 ℝ) : ℝ := max |d.x| |d.y|
theorem sz_size (d : V2 ℝ) : Sz (size2 d) d := ⟨le_max_left _ _, le_max_right _ _⟩
theorem size_le (h : Sz A d) : size2 d ≤ A := max_le h.1 h.2

/-- Specification: in some direction the shapes overlap by at most `δ` (in the norm that is the larger component). -/
def NearlySeparated (δ : ℝ) (L Rr : V2 ℝ → Prop) : Prop := ∃ d : V2 ℝ, d ≠ 0 ∧ ∀ p q, L p → Rr q → (p - q).dot d ≤ δ * size2 d
/-- Shapes that overlap in every direction by more are not nearly separated. -/
theorem deep_not_nearly {L Rr : V2 ℝ → Prop} {r δ : ℝ} (hr : δ < r) (hδ : 0 ≤ δ) (h : Deep2 L Rr r) : ¬ NearlySeparated δ L Rr := by
  rintro ⟨d, hd, hs⟩
  have hn : 0 < d.norm := V2.norm_pos hd
  have h0 : 0 < r := hδ.trans_lt hr
  obtain ⟨x, y, hx, hy, e⟩ := h (d * (r / d.norm)) (by
    rw [V2.norm_smul, abs_of_pos (div_pos h0 hn)]
    exact le_of_eq (by field_simp))
  have h1 := hs x y hx hy
  rw [e] at h1
  have h2 : (d * (r / d.norm)).dot d = r / d.norm * d.dot d := by simp only [V2.dot, V2.mul_x, V2.mul_y]; ring
  have h3 : d.dot d = d.norm * d.norm := by
    unfold V2.norm
    rw [Real.mul_self_sqrt]
    exact (dot_self_pos2 hd).le
  have h4 : size2 d ≤ d.norm := by
    have hx : |d.x| ≤ d.norm := Real.abs_le_sqrt (by simp only [V2.dot]; nlinarith [mul_self_nonneg d.y])
    have hy : |d.y| ≤ d.norm := Real.abs_le_sqrt (by simp only [V2.dot]; nlinarith [mul_self_nonneg d.x])
    exact max_le hx hy
  rw [h2, h3, show r / d.norm * (d.norm * d.norm) = r * d.norm by field_simp] at h1
  have h5 : δ * size2 d ≤ δ * d.norm := mul_le_mul_of_nonneg_left h4 hδ
  have h6 : δ * d.norm < r * d.norm := mul_lt_mul_of_pos_right hr hn
  linarith

/-- What a rounded miss with direction `d` says. -/
def MissAt (u η M : ℝ) (L Rr : V2 ℝ → Prop) (d : V2 ℝ) : Prop := ∀ p q, L p → Rr q → (p - q).dot d ≤ 512 * (u * (M * size2 d) + η * (M + size2 d))
/-- Without underflow the error is relative. -/
theorem near_of_missAt {L Rr : V2 ℝ → Prop} {W : ℝ} (hu : 0 ≤ u) (hη : 0 ≤ η) (hM : 1 ≤ M) (hW : 1 ≤ W) (hηu : η * W ≤ u) (nd : d ≠ 0) (hd : 1 ≤ size2 d * W) (h : MissAt u η M L Rr d) :
    NearlySeparated (1536 * (u * M)) L Rr := by
  refine ⟨d, nd, fun p q hp hq => (h p q hp hq).trans ?_⟩
  have hs : 0 ≤ size2 d := (abs_nonneg _).trans (le_max_left _ _)
  have h1 : η ≤ u * size2 d := by
    have h2 : η * 1 ≤ η * (size2 d * W) := mul_le_mul_of_nonneg_left hd hη
    have h3 : size2 d * (η * W) ≤ size2 d * u := mul_le_mul_of_nonneg_left hηu hs
    linarith
  have h2 : η ≤ u := by
    have : η * 1 ≤ η * W := mul_le_mul_of_nonneg_left hW hη
    linarith
  have h3 : η * M ≤ u * size2 d * M := mul_le_mul_of_nonneg_right h1 (by linarith)
  have h4 : η * size2 d ≤ u * size2 d := mul_le_mul_of_nonneg_right h2 hs
  have h5 : u * size2 d * 1 ≤ u * size2 d * M := mul_le_mul_of_nonneg_left hM (mul_nonneg hu hs)
  linarith

/-- The coordinates of the shape are multiples of `1 / N`. -/
def Flat2.Fine (N : ℕ) : Flat2 ℝ → Prop
  | .particle => True
  | .line l => (Gr N 1 l.origin.x ∧ Gr N 1 l.origin.y) ∧ (Gr N 1 l.dest.x ∧ Gr N 1 l.dest.y)
  | .rectangle w h => Gr N 1 (w / 2) ∧ Gr N 1 (h / 2)
  | .square w => Gr N 1 (w / 2)
  | .polygon vs => ∀ v ∈ vs, Gr N 1 v.x ∧ Gr N 1 v.y
/-- The entries of the transform are multiples of `1 / N`. -/
structure Fine2 (N : ℕ) (D : Dec2 ℝ) : Prop where
  r0 : Gr N 1 D.rot.c0.x ∧ Gr N 1 D.rot.c0.y
  r1 : Gr N 1 D.rot.c1.x ∧ Gr N 1 D.rot.c1.y
  disp : Gr N 1 D.disp.x ∧ Gr N 1 D.disp.y
theorem fine_dec {G J : ℕ} (hG : KeepsGr R G J) (hJ : 6 ≤ J) {D : Dec2 ℝ} (hD : Fits2 R M D) (h : Fine2 G D) : Grained G (decF R D) := by
  refine ⟨?_, ⟨.real hG (by omega) h.r0.1, .real hG (by omega) h.r0.2⟩, ⟨.real hG (by omega) h.r1.1, .real hG (by omega) h.r1.2⟩,
    ⟨.real hG (by omega) (h.disp.1.up (by omega)), .real hG (by omega) (h.disp.2.up (by omega))⟩⟩
  show GrF G 0 (toF R D.scale)
  rw [hD.scale, toF_one]
  exact GrF.one
theorem fine_flat {G J : ℕ} (hG : KeepsGr R G J) (hJ : 6 ≤ J) (h : Std R u η Ω) (hMΩ : M ≤ Ω) {s : Flat2 ℝ} (hs : s.Fits R M) (hf : s.Fine G) : (s.toFl R).Grained G := by
  have key : ∀ {w k : ℝ}, Gr G 1 (w / 2) → Gr G 1 (k / 2) → ∀ v ∈ (Rectangle.new w k).corners, GrV G 1 (toV2 R v) := by
    intro w k gw gk v hv
    have ec : (Rectangle.new w k).corners = [⟨w / 2, k / 2⟩, ⟨-(w / 2), k / 2⟩, ⟨-(w / 2), -(k / 2)⟩, ⟨w / 2, -(k / 2)⟩] := by
      norm_num [Rectangle.new, Rectangle.newImpl, Rectangle.generateCorners]
    rw [ec] at hv
    simp only [List.mem_cons, List.not_mem_nil, or_false] at hv
    have a1 := GrF.real (R := R) hG (by omega) gw
    have a2 := GrF.real (R := R) hG (by omega) gk
    have b1 := GrF.real (R := R) hG (by omega) gw.neg
    have b2 := GrF.real (R := R) hG (by omega) gk.neg
    rcases hv with rfl | rfl | rfl | rfl
    · exact ⟨a1, a2⟩
    · exact ⟨b1, a2⟩
    · exact ⟨b1, b2⟩
    · exact ⟨a1, b2⟩
  cases s with
  | particle => trivial
  | line l => exact ⟨⟨.real hG (by omega) hf.1.1, .real hG (by omega) hf.1.2⟩, ⟨.real hG (by omega) hf.2.1, .real hG (by omega) hf.2.2⟩⟩
  | rectangle w k =>
    obtain ⟨⟨w0, k0⟩, ⟨rw', rk⟩, ⟨rw2, rk2⟩, wM, kM⟩ := hs
    intro v hv
    rw [(corners_near h rw' rk rw2 rk2 w0 k0 wM kM hMΩ).1] at hv
    obtain ⟨v', hv', rfl⟩ := List.mem_map.1 hv
    exact key hf.1 hf.2 v' hv'
  | square w =>
    obtain ⟨w0, rw', rw2, wM⟩ := hs
    intro v hv
    rw [(corners_near h rw' rw' rw2 rw2 w0 w0 wM wM hMΩ).1] at hv
    obtain ⟨v', hv', rfl⟩ := List.mem_map.1 hv
    exact key hf hf v' hv'
  | polygon vs =>
    intro v hv
    obtain ⟨v', hv', rfl⟩ := List.mem_map.1 hv
    exact ⟨.real hG (by omega) (hf v' hv').1, .real hG (by omega) (hf v' hv').2⟩

variable {s t : Flat2 ℝ} {D E : Dec2 ℝ}
/-- The support point: the points of the two shapes and their difference, up to rounding. -/
def NearPoint (R : Rounding F) (δ : ℝ) (L Rr : V2 ℝ → Prop) (a : SP (V2 (Fl R))) : Prop :=
  ∃ v x y p q, L p ∧ Rr q ∧ a = ⟨toV2 R v, toV2 R x, toV2 R y⟩ ∧ (Rp R v ∧ Rp R x ∧ Rp R y) ∧ Sz δ (v - (p - q)) ∧ Sz δ (x - p) ∧ Sz δ (y - q)

theorem mink_near (h : Std R u η Ω) (hs : s.Fits R M) (ht : t.Fits R M) (hD : Fits2 R M D) (hF : Fits2 R M E) (hM : 1 ≤ M) (rd : Rp R d) (sd : Sz N d) (hΩ : 64 * (M * (N + 1)) ≤ Ω) :
    ∃ a a', SP.fromMinkowski ((s.toFl R).supportG (decF R D)) ((t.toFl R).supportG (decF R E)) (toV2 R d) = .ok a ∧ a.v = toV2 R a' ∧ Rp R a' ∧ Sz (11 * M) a' ∧
      NearPoint R (29 * (u * M) + 11 * η) (Image D.tr s.prim.Points) (Image E.tr t.prim.Points) a ∧
      (a.v.dot (toV2 R d) ≤ 0 → ∀ p q, Image D.tr s.prim.Points p → Image E.tr t.prim.Points q → (p - q).dot d ≤ 512 * (u * (M * N) + η * (M + N))) := by
  have hu := h.u0
  have hu1 := h.u1
  have hη := h.η0
  have hη1 := h.η1
  have hN := sd.nonneg
  have hMN : 0 ≤ M * N := mul_nonneg (by linarith) hN
  have hNMN : N ≤ M * N := by nlinarith
  have hΩ' : 64 * (M * N) + 64 * M ≤ Ω := by linarith
  have rn := rd.neg h sd (by linarith)
  obtain ⟨w, rw', sw, ew, ⟨p0, hp0, np⟩, dw⟩ := support_near h hs hD hM rd sd hΩ
  obtain ⟨w2, rw2, sw2, ew2, ⟨q0, hq0, nq⟩, dw2⟩ := support_near h ht hF hM rn sd.neg hΩ
  obtain ⟨a', ra, ea, da, -⟩ := sub_err h rw' rw2 sw sw2 (by linarith)
  have sa : Sz (11 * M) a' := by
    have uM : u * (5 * M + 5 * M) ≤ 1 / 16 * (5 * M + 5 * M) := mul_le_mul_of_nonneg_right hu1 (by linarith)
    refine (sz_sub da (B := 10 * M) ?_).mono (by linarith)
    constructor
    · refine (abs_sub _ _).trans ?_
      linarith [sw.1, sw2.1]
    · refine (abs_sub _ _).trans ?_
      linarith [sw.2, sw2.2]
  refine ⟨⟨toV2 R a', toV2 R w, toV2 R w2⟩, a', ?_, rfl, ra, sa, ⟨a', w, w2, p0, q0, hp0, hq0, rfl, ⟨ra, rw', rw2⟩, ?_, np.mono ?_, nq.mono ?_⟩, ?_⟩
  · unfold SP.fromMinkowski
    rw [ew, Res.bind_ok, show -toV2 R d = toV2 R (-d) from toV2_neg rd, ew2, Res.bind_ok, ea]
    rfl
  · have k : ∀ {α β γ δ ε : ℝ}, |α - (β - γ)| ≤ u * (5 * M + 5 * M) + η → |β - δ| ≤ 9 * (u * M) + 5 * η → |γ - ε| ≤ 9 * (u * M) + 5 * η → |α - (δ - ε)| ≤ 29 * (u * M) + 11 * η := by
      intro α β γ δ ε h1 h2 h3
      rw [show u * (5 * M + 5 * M) = 10 * (u * M) by ring] at h1
      have := mul_nonneg hu (show 0 ≤ M by linarith)
      rw [abs_le] at h1 h2 h3 ⊢
      constructor <;> linarith
    exact ⟨k da.1 np.1 nq.1, k da.2 np.2 nq.2⟩
  · have := mul_nonneg hu (show 0 ≤ M by linarith)
    linarith
  · have := mul_nonneg hu (show 0 ≤ M by linarith)
    linarith
  · intro hle p q hp hq
    obtain ⟨r, rr, er, dr, -⟩ := dot_err h ra rd sa sd (by linarith)
    have hr : r ≤ 0 := by
      rw [show (⟨toV2 R a', toV2 R w, toV2 R w2⟩ : SP (V2 (Fl R))).v = toV2 R a' from rfl, er, ← toF_zero] at hle
      exact (toF_le rr rep_zero).1 hle
    have h1 := dw p hp
    have h2 := dw2 q hq
    have h3 := dot_sub_le da sd
    rw [show (w - w2).dot d = w.dot d - w2.dot d by simp [V2.dot]; ring] at h3
    rw [dot_neg2, dot_neg2] at h2
    rw [show (p - q).dot d = p.dot d - q.dot d by simp [V2.dot]; ring]
    rw [abs_le] at h3 dr
    have q3 : η * 1 ≤ η * M := mul_le_mul_of_nonneg_left hM hη
    have q4 : 0 ≤ u * (M * N) := mul_nonneg hu hMN
    have q5 : 0 ≤ η * N := mul_nonneg hη hN
    linarith

/-- The size of the triple product. -/
theorem triple_near (h : Std R u η Ω) {C : ℝ} (hC : 1 ≤ C) (ra : Rp R a) (rb : Rp R b) (rc : Rp R c) (sa : Sz C a) (sb : Sz C b) (sc : Sz C c) (hΩ : 8 * C ^ 3 ≤ Ω) :
    ∃ w, Rp R w ∧ Sz (9 * C ^ 3) w ∧ tripleProductG (toV2 R a) (toV2 R b) (toV2 R c) = toV2 R w := by
  have hu1 := h.u1
  have hη1 := h.η1
  have hη := h.η0
  have c2 : C * C ≤ C ^ 3 := by nlinarith
  have c1 : 1 ≤ C * C := by nlinarith
  have uC : u * (C * C) ≤ 1 / 16 * (C * C) := mul_le_mul_of_nonneg_right hu1 (by linarith)
  have side : ∀ {x y : V2 ℝ}, Rp R x → Rp R y → Sz C x → Sz C y → ∃ r, Rep R r ∧ (toV2 R x).dot (toV2 R y) = toF R r ∧ |r| ≤ 3 * (C * C) := by
    intro x y rx ry sx sy
    obtain ⟨r, rr, er, dr, -⟩ := dot_err h rx ry sx sy (by linarith)
    refine ⟨r, rr, er, ?_⟩
    have := dot_abs_le sx sy
    rw [abs_le] at this dr ⊢
    constructor <;> linarith
  obtain ⟨p, rp, ep, bp⟩ := side ra rc sa sc
  obtain ⟨q, rq, eq, bq⟩ := side rb rc sb sc
  have u3 : u * (3 * C ^ 3) ≤ 1 / 16 * (3 * C ^ 3) := mul_le_mul_of_nonneg_right hu1 (by linarith)
  have u8 : u * (8 * C ^ 3) ≤ 1 / 16 * (8 * C ^ 3) := mul_le_mul_of_nonneg_right hu1 (by linarith)
  have prod : ∀ {x y : ℝ}, Rep R x → Rep R y → |x| ≤ C → |y| ≤ 3 * (C * C) → ∃ z, Rep R z ∧ toF R x * toF R y = toF R z ∧ |z| ≤ 4 * C ^ 3 := by
    intro x y rx ry hx hy
    have hb : |x * y| ≤ 3 * C ^ 3 := (mul_abs_le hx hy).trans (by linarith [show C * (3 * (C * C)) = 3 * C ^ 3 by ring])
    obtain ⟨z, rz, ez, dz⟩ := h.fl hb (by linarith)
    refine ⟨z, rz, by rw [toF_mul rx ry, ez], ?_⟩
    rw [abs_le] at dz hb ⊢
    constructor <;> linarith
  have diff : ∀ {x y : ℝ}, Rep R x → Rep R y → |x| ≤ 4 * C ^ 3 → |y| ≤ 4 * C ^ 3 → ∃ z, Rep R z ∧ toF R x - toF R y = toF R z ∧ |z| ≤ 9 * C ^ 3 := by
    intro x y rx ry hx hy
    have hb : |x - y| ≤ 8 * C ^ 3 := (abs_sub _ _).trans (by linarith)
    obtain ⟨z, rz, ez, dz⟩ := h.fl hb (by linarith)
    refine ⟨z, rz, by rw [toF_sub rx ry, ez], ?_⟩
    rw [abs_le] at dz hb ⊢
    constructor <;> linarith
  obtain ⟨x1, r1, e1, b1⟩ := prod rb.1 rp sb.1 bp
  obtain ⟨x2, r2, e2, b2⟩ := prod ra.1 rq sa.1 bq
  obtain ⟨y1, r3, e3, b3⟩ := prod rb.2 rp sb.2 bp
  obtain ⟨y2, r4, e4, b4⟩ := prod ra.2 rq sa.2 bq
  obtain ⟨x, rx, ex, bx⟩ := diff r1 r2 b1 b2
  obtain ⟨y, ry, ey, by'⟩ := diff r3 r4 b3 b4
  refine ⟨⟨x, y⟩, ⟨rx, ry⟩, ⟨bx, by'⟩, ?_⟩
  have ep' : toF R a.x * toF R c.x + toF R a.y * toF R c.y = toF R p := ep
  have eq' : toF R b.x * toF R c.x + toF R b.y * toF R c.y = toF R q := eq
  unfold tripleProductG
  show (⟨toF R b.x * (toF R a.x * toF R c.x + toF R a.y * toF R c.y) - toF R a.x * (toF R b.x * toF R c.x + toF R b.y * toF R c.y),
    toF R b.y * (toF R a.x * toF R c.x + toF R a.y * toF R c.y) - toF R a.y * (toF R b.x * toF R c.x + toF R b.y * toF R c.y)⟩ : V2 (Fl R)) = _
  rw [ep', eq', e1, e2, e3, e4, ex, ey]
  rfl

theorem dot_zero_F (rb : Rp R b) : (toV2 R 0).dot (toV2 R b) = 0 := by
  show toF R 0 * toF R b.x + toF R 0 * toF R b.y = 0
  rw [toF_mul rep_zero rb.1, toF_mul rep_zero rb.2, zero_mul, zero_mul, toF_add rep_zero rep_zero, add_zero, toF_zero]
theorem near_zero {eps : Fl R} (h : 0 ≤ eps) : NearG2 eps (toV2 R 0) := by
  have : -toF R 0 = 0 := by rw [toF_neg rep_zero, neg_zero, toF_zero]
  exact ⟨⟨by rw [show (toV2 R 0).x = toF R 0 from rfl, toF_zero]; exact h, by rw [show (toV2 R 0).x = toF R 0 from rfl, this]; exact h⟩,
    ⟨by rw [show (toV2 R 0).y = toF R 0 from rfl, toF_zero]; exact h, by rw [show (toV2 R 0).y = toF R 0 from rfl, this]; exact h⟩⟩

/-- What holds between two steps: a search direction that is not zero, and one point that is on the other side, or two points. -/
def MissInv (R : Rounding F) (M : ℝ) (x : List (SP (V2 (Fl R)))) (d : V2 (Fl R)) : Prop :=
  ∃ d', d = toV2 R d' ∧ Rp R d' ∧ Sz (9 * (24 * M) ^ 3) d' ∧ d' ≠ 0 ∧
    ((∃ a a', x = [a] ∧ a.v = toV2 R a' ∧ Rp R a' ∧ Sz (11 * M) a' ∧ 0 < (toV2 R a').dot (toV2 R (-d'))) ∨
      ∃ a b a' b', x = [a, b] ∧ a.v = toV2 R a' ∧ b.v = toV2 R b' ∧ Rp R a' ∧ Rp R b' ∧ Sz (11 * M) a' ∧ Sz (11 * M) b')

theorem reduce_miss (h : Std R u η Ω) (hM : 1 ≤ M) (hΩ : 2 ^ 23 * M ^ 4 ≤ Ω) {eps : Fl R} (heps : 0 ≤ eps) {x : List (SP (V2 (Fl R)))} {d : V2 (Fl R)} (hI : MissInv R M x d) {a : SP (V2 (Fl R))} {a' : V2 ℝ}
    (ea : a.v = toV2 R a') (ra : Rp R a') (sa : Sz (11 * M) a') (hpos : 0 < a.v.dot d) (hf : (reduceG2 eps (x ++ [a]) d).1 = false) :
    MissInv R M (reduceG2 eps (x ++ [a]) d).2.1 (reduceG2 eps (x ++ [a]) d).2.2 := by
  have hu := h.u0
  have hu1 := h.u1
  have hη := h.η0
  have hη1 := h.η1
  have m3 : M ≤ M ^ 3 := le_self_pow₀ hM (by norm_num)
  have m4 : M ^ 3 ≤ M ^ 4 := pow_le_pow_right₀ hM (by norm_num)
  have ma : M ≤ M ^ 4 := m3.trans m4
  have uM : u * (11 * M + 11 * M) ≤ 1 / 16 * (11 * M + 11 * M) := mul_le_mul_of_nonneg_right hu1 (by linarith)
  have h24 : 8 * (24 * M) ^ 3 ≤ Ω := by
    rw [mul_pow]
    linarith
  have side : ∀ {b : V2 ℝ}, Rp R b → Sz (11 * M) b → ∃ c, Rp R c ∧ toV2 R b - toV2 R a' = toV2 R c ∧ Sz (24 * M) c ∧ (c = 0 → b = a') := by
    intro b rb sb
    obtain ⟨c, rc, ec, dc, zc⟩ := sub_err h rb ra sb sa (by linarith)
    refine ⟨c, rc, ec, (sz_sub dc (B := 22 * M) ?_).mono (by linarith), zc⟩
    constructor
    · refine (abs_sub _ _).trans ?_
      linarith [sb.1, sa.1]
    · refine (abs_sub _ _).trans ?_
      linarith [sb.2, sa.2]
  have rao : Rp R (-a') := ra.neg h sa (by linarith)
  have sao : Sz (24 * M) (-a') := sa.neg.mono (by linarith)
  have eao : -toV2 R a' = toV2 R (-a') := toV2_neg ra
  obtain ⟨d', rfl, rd, sd, nd, hI | hI⟩ := hI
  · obtain ⟨b, b', rfl, eb, rb, sb, hb⟩ := hI
    obtain ⟨c, rc, ec, sc, zc⟩ := side rb sb
    obtain ⟨w, rw', sw, ew⟩ := triple_near h (by linarith) rc rao rc sc sao sc h24
    have hc : c ≠ 0 := by
      intro h0
      have := zc h0
      subst this
      -- a point cannot be on both sides
      have rn := rd.neg h sd (by rw [mul_pow]; linarith)
      obtain ⟨r, rr, er, -, h2⟩ := dot_err h ra rd sa sd (by
        rw [mul_pow]
        have : 11 * M * (9 * (24 ^ 3 * M ^ 3)) = 1368576 * M ^ 4 := by ring
        rw [this]
        linarith)
      obtain ⟨rr', er'⟩ := h2 rn
      rw [ea, er, ← toF_zero] at hpos
      rw [er', ← toF_zero] at hb
      have p1 := (toF_lt rep_zero rr).1 hpos
      have p2 := (toF_lt rep_zero rr').1 hb
      linarith
    have e2 : reduceG2 eps [b, a] (toV2 R d') = (false, [b, a], if NearG2 eps (toV2 R w) then ⟨-(toV2 R c).y, (toV2 R c).x⟩ else toV2 R w) := by
      unfold reduceG2
      dsimp only
      rw [ea, eb, ec, eao, ew]
    show MissInv R M (reduceG2 eps [b, a] (toV2 R d')).2.1 (reduceG2 eps [b, a] (toV2 R d')).2.2
    rw [e2]
    by_cases hn : NearG2 eps (toV2 R w)
    · refine ⟨⟨-c.y, c.x⟩, ?_, ⟨h.rep_neg (sc.2.trans (by linarith)) rc.2, rc.1⟩, ?_, ?_, Or.inr ⟨b, a, b', a', rfl, eb, ea, rb, ra, sb, sa⟩⟩
      · dsimp only
        rw [if_pos hn]
        show (⟨-toF R c.y, toF R c.x⟩ : V2 (Fl R)) = _
        rw [toF_neg rc.2]
        rfl
      · have : Sz (24 * M) ⟨-c.y, c.x⟩ := ⟨by rw [abs_neg]; exact sc.2, sc.1⟩
        refine this.mono ?_
        rw [mul_pow]
        linarith
      · intro h0
        apply hc
        have h1 : -c.y = 0 := congrArg V2.x h0
        have h2 : c.x = 0 := congrArg V2.y h0
        ext
        · exact h2
        · show c.y = 0
          linarith
    · refine ⟨w, by dsimp only; rw [if_neg hn], rw', sw, ?_, Or.inr ⟨b, a, b', a', rfl, eb, ea, rb, ra, sb, sa⟩⟩
      rintro rfl
      exact hn (near_zero heps)
  · obtain ⟨s0, s1, c', b', rfl, e0, e1, r0, r1, z0, z1⟩ := hI
    obtain ⟨ab, rab, eab, sab, -⟩ := side r1 z1
    obtain ⟨ac, rac, eac, sac, -⟩ := side r0 z0
    obtain ⟨p, rp, sp, ep⟩ := triple_near h (by linarith) rac rab rab sac sab sab h24
    obtain ⟨q, rq, sq, eq⟩ := triple_near h (by linarith) rab rac rac sab sac sac h24
    have e2 : reduceG2 eps [s0, s1, a] (toV2 R d') = if (toV2 R p).dot (toV2 R (-a')) > 0 then (false, [s1, a], toV2 R p) else
        if (toV2 R q).dot (toV2 R (-a')) > 0 then (false, [s0, a], toV2 R q) else (true, [s0, s1, a], toV2 R d') := by
      unfold reduceG2
      dsimp only
      rw [ea, e0, e1, eab, eac, eao, ep, eq]
    have ne : ∀ {w : V2 ℝ}, (toV2 R w).dot (toV2 R (-a')) > 0 → w ≠ 0 := by
      rintro w hw rfl
      rw [dot_zero_F rao] at hw
      exact lt_irrefl _ hw
    change (reduceG2 eps [s0, s1, a] (toV2 R d')).1 = false at hf
    show MissInv R M (reduceG2 eps [s0, s1, a] (toV2 R d')).2.1 (reduceG2 eps [s0, s1, a] (toV2 R d')).2.2
    rw [e2] at hf ⊢
    by_cases hp : (toV2 R p).dot (toV2 R (-a')) > 0
    · rw [if_pos hp]
      exact ⟨p, rfl, rp, sp, ne hp, Or.inr ⟨s1, a, b', a', rfl, e1, ea, r1, ra, z1, sa⟩⟩
    · rw [if_neg hp] at hf ⊢
      by_cases hq : (toV2 R q).dot (toV2 R (-a')) > 0
      · rw [if_pos hq]
        exact ⟨q, rfl, rq, sq, ne hq, Or.inr ⟨s0, a, c', a', rfl, e0, ea, r0, ra, z0, sa⟩⟩
      · rw [if_neg hq] at hf
        cases hf

theorem reduceG2_mem {eps : Fl R} {l : List (SP (V2 (Fl R)))} {d : V2 (Fl R)} {p : SP (V2 (Fl R))} (hp : p ∈ (reduceG2 eps l d).2.1) : p ∈ l := by
  match l with
  | [] => exact hp
  | [_] => exact hp
  | [_, _] => exact hp
  | _ :: _ :: _ :: _ :: _ => exact hp
  | [s0, s1, s2] =>
    unfold reduceG2 at hp
    dsimp only at hp
    split at hp
    · exact List.mem_cons_of_mem _ hp
    · split at hp
      · rcases List.mem_cons.1 hp with rfl | hp
        · exact List.mem_cons_self
        · exact List.mem_cons_of_mem _ (List.mem_cons_of_mem _ hp)
      · exact hp
theorem reduceG2_hit {eps : Fl R} {l : List (SP (V2 (Fl R)))} {d : V2 (Fl R)} (h : (reduceG2 eps l d).1 = true) : (reduceG2 eps l d).2.1.length = 3 := by
  match l with
  | [] => cases h
  | [_] => cases h
  | [_, _] => cases h
  | _ :: _ :: _ :: _ :: _ => cases h
  | [s0, s1, s2] =>
    unfold reduceG2 at h ⊢
    dsimp only at h ⊢
    split at h
    · cases h
    · rename_i h1
      split at h
      · cases h
      · rename_i h2
        rw [if_neg h1, if_neg h2]
        rfl

/-- The run, for polygons, rectangles, lines and particles with coordinates of at most `M`: what a miss and what a hit say. -/
theorem run_near (h : Std R u η Ω) (hM : 1 ≤ M) (hΩ : 2 ^ 23 * M ^ 4 ≤ Ω) {eps : Fl R} (heps : 0 ≤ eps) (hs : s.Fits R M) (ht : t.Fits R M) (hD : Fits2 R M D) (hF : Fits2 R M E)
    {G J : ℕ} (hG : KeepsGr R G J) (hJ : 6 ≤ J) (hG0 : 0 < G) (hηu : η * (G : ℝ) ^ 6 ≤ u) (gs : s.Fine G) (gt : t.Fine G) (gD : Fine2 G D) (gE : Fine2 G E) (n : Nat) :
    ∃ o, gjkRunG2 eps n ((s.toFl R).supportG (decF R D)) ((t.toFl R).supportG (decF R E)) (pointG2 (decF R D) 0) (pointG2 (decF R E) 0) = .ok o ∧
      (o = .miss → NearlySeparated (1536 * (u * M)) (Image D.tr s.prim.Points) (Image E.tr t.prim.Points)) ∧
      (∀ x, o = .hit x → x.length = 3 ∧ ∀ p ∈ x, NearPoint R (40 * (u * M)) (Image D.tr s.prim.Points) (Image E.tr t.prim.Points) p) := by
  have hu := h.u0
  have hu1 := h.u1
  have hη := h.η0
  have hη1 := h.η1
  have m3 : M ≤ M ^ 3 := le_self_pow₀ hM (by norm_num)
  have m4 : M ^ 3 ≤ M ^ 4 := pow_le_pow_right₀ hM (by norm_num)
  have big : ∀ {d' : V2 ℝ}, Sz (9 * (24 * M) ^ 3) d' → 64 * (M * (size2 d' + 1)) ≤ Ω := by
    intro d' sd
    have h1 := size_le sd
    rw [mul_pow] at h1
    have h2 : M * size2 d' ≤ M * (9 * (24 ^ 3 * M ^ 3)) := mul_le_mul_of_nonneg_left h1 (by linarith)
    have h3 : M * (9 * (24 ^ 3 * M ^ 3)) = 124416 * M ^ 4 := by ring
    rw [h3] at h2
    linarith
  have gs' := fine_flat hG hJ h (show M ≤ Ω by linarith) hs gs
  have gt' := fine_flat hG hJ h (show M ≤ Ω by linarith) ht gt
  have gD' := fine_dec hG hJ hD gD
  have gE' := fine_dec hG hJ hF gE
  have g1 : (1 : ℝ) ≤ (G : ℝ) ^ 6 := one_le_pow₀ (by exact_mod_cast hG0)
  -- a direction on the grain is not small
  have low : ∀ {d' : V2 ℝ}, Rp R d' → d' ≠ 0 → GrV G 6 (toV2 R d') → 1 ≤ size2 d' * (G : ℝ) ^ 6 := by
    intro d' rd nd hg
    have g0 : (0 : ℝ) ≤ (G : ℝ) ^ 6 := by linarith
    by_cases hx : d'.x = 0
    · have hy : d'.y ≠ 0 := fun hy => nd (by ext <;> assumption)
      exact ((GrF.gr rd.2 hg.2).le_abs hy hG0).trans (mul_le_mul_of_nonneg_right (le_max_right _ _) g0)
    · exact ((GrF.gr rd.1 hg.1).le_abs hx hG0).trans (mul_le_mul_of_nonneg_right (le_max_left _ _) g0)
  have near : ∀ {d' : V2 ℝ}, Rp R d' → d' ≠ 0 → GrV G 6 (toV2 R d') → MissAt u η M (Image D.tr s.prim.Points) (Image E.tr t.prim.Points) d' →
      NearlySeparated (1536 * (u * M)) (Image D.tr s.prim.Points) (Image E.tr t.prim.Points) :=
    fun rd nd hg hm => near_of_missAt hu hη hM g1 hηu nd (low rd nd hg) hm
  have wide : ∀ {a : SP (V2 (Fl R))}, NearPoint R (29 * (u * M) + 11 * η) (Image D.tr s.prim.Points) (Image E.tr t.prim.Points) a →
      NearPoint R (40 * (u * M)) (Image D.tr s.prim.Points) (Image E.tr t.prim.Points) a := by
    rintro a ⟨v, x, y, p, q, hp, hq, e, r, h1, h2, h3⟩
    have hη' : η ≤ u * M := by
      have i1 : η * 1 ≤ η * (G : ℝ) ^ 6 := mul_le_mul_of_nonneg_left g1 hη
      have i2 : u * 1 ≤ u * M := mul_le_mul_of_nonneg_left hM hu
      linarith
    exact ⟨v, x, y, p, q, hp, hq, e, r, h1.mono (by linarith), h2.mono (by linarith), h3.mono (by linarith)⟩
  have gp0 : GrV G 6 (firstDirectionG2 eps (pointG2 (decF R D) 0) (pointG2 (decF R E) 0)) :=
    first_gr hG (by omega) (point_gr hG (by omega) gD' ⟨GrF.zero, GrF.zero⟩) (point_gr hG (by omega) gE' ⟨GrF.zero, GrF.zero⟩)
  have z0 : Rp R (0 : V2 ℝ) := ⟨rep_zero, rep_zero⟩
  have zs : Sz M (0 : V2 ℝ) := ⟨by simp; linarith, by simp; linarith⟩
  obtain ⟨p, rp, sp, ep, -⟩ := point_near h hD hM z0 zs (by linarith)
  obtain ⟨q, rq, sq, eq, -⟩ := point_near h hF hM z0 zs (by linarith)
  rw [← toV2_zero, ep, eq] at gp0 ⊢
  -- the first direction
  obtain ⟨d, ed, rd, sd, nd⟩ : ∃ d', firstDirectionG2 eps (toV2 R p) (toV2 R q) = toV2 R d' ∧ Rp R d' ∧ Sz (9 * (24 * M) ^ 3) d' ∧ d' ≠ 0 := by
    obtain ⟨c, rc, ec, dc, -⟩ := sub_err h rq rp sq sp (by linarith)
    unfold firstDirectionG2
    dsimp only
    rw [ec]
    by_cases hn : NearG2 eps (toV2 R c)
    · rw [if_pos hn]
      refine ⟨⟨1, 1⟩, ?_, ⟨rep_one, rep_one⟩, ?_, ?_⟩
      · show _ = (⟨toF R 1, toF R 1⟩ : V2 (Fl R))
        rw [toF_one]
      · have : Sz 1 (⟨1, 1⟩ : V2 ℝ) := ⟨by simp, by simp⟩
        refine this.mono ?_
        rw [mul_pow]
        linarith
      · intro h0
        have : (1 : ℝ) = 0 := congrArg V2.x h0
        norm_num at this
    · rw [if_neg hn]
      refine ⟨c, rfl, rc, ?_, ?_⟩
      · have uM : u * (5 * M + 5 * M) ≤ 1 / 16 * (5 * M + 5 * M) := mul_le_mul_of_nonneg_right hu1 (by linarith)
        refine (sz_sub dc (B := 10 * M) ?_).mono (by rw [mul_pow]; linarith)
        constructor
        · refine (abs_sub _ _).trans ?_
          linarith [sq.1, sp.1]
        · refine (abs_sub _ _).trans ?_
          linarith [sq.2, sp.2]
      · rintro rfl
        exact hn (near_zero heps)
  unfold gjkRunG2
  dsimp only
  rw [ed] at gp0 ⊢
  obtain ⟨a, a', ea, va, ra, sa, na, hmiss⟩ := mink_near h hs ht hD hF hM rd (sz_size d) (big sd)
  rw [ea, Res.bind_ok]
  by_cases hle : a.v.dot (toV2 R d) ≤ 0
  · refine ⟨.miss, if_pos hle, fun _ => near rd nd gp0 (hmiss hle), nofun⟩
  · rw [if_neg (show ¬ (Inner.dot a.v (toV2 R d) ≤ 0) from hle)]
    have hΩ' : 9 * (24 * M) ^ 3 ≤ Ω := by
      rw [mul_pow]; linarith
    have rn := rd.neg h sd hΩ'
    obtain ⟨o, ho, h1, h2⟩ := gjkLoop_spec (fun x d => MissInv R M x d ∧ ((∀ p ∈ x, GrV G 2 p.v) ∧ GrV G 6 d) ∧
      ∀ p ∈ x, NearPoint R (40 * (u * M)) (Image D.tr s.prim.Points) (Image E.tr t.prim.Points) p) (NearlySeparated (1536 * (u * M)) (Image D.tr s.prim.Points) (Image E.tr t.prim.Points)) (fun x => x.length = 3 ∧ ∀ p ∈ x, NearPoint R (40 * (u * M)) (Image D.tr s.prim.Points) (Image E.tr t.prim.Points) p) (by
      rintro x d ⟨hI, ⟨gx, gd⟩, nx⟩
      obtain ⟨d', rfl, rd, sd, nd, -⟩ := id hI
      obtain ⟨a, a', ea, va, ra, sa, na, hmiss⟩ := mink_near h hs ht hD hF hM rd (sz_size d') (big sd)
      have all : ∀ p ∈ (reduceG2 eps (x ++ [a]) (toV2 R d')).2.1, NearPoint R (40 * (u * M)) (Image D.tr s.prim.Points) (Image E.tr t.prim.Points) p := by
        intro p hp
        rcases List.mem_append.1 (reduceG2_mem hp) with hp | hp
        · exact nx p hp
        · rw [List.mem_singleton.1 hp]
          exact wide na
      refine ⟨a, ea, fun hle => near rd nd gd (hmiss hle), fun hpos => ⟨fun ht => ⟨reduceG2_hit ht, all⟩, fun hf => ⟨reduce_miss h hM hΩ heps hI va ra sa hpos hf, ?_, all⟩⟩⟩
      have ga := mink_gr hG (by omega) gs' gt' gD' gE' ea
      exact reduce_gr hG hJ (by
        intro p hp
        rcases List.mem_append.1 hp with hp | hp
        · exact gx p hp
        · rw [List.mem_singleton.1 hp]; exact ga) gd) n [a] (-toV2 R d) (by
      have ga := mink_gr hG (by omega) gs' gt' gD' gE' ea
      refine ⟨?_, ⟨by simpa using ga, gp0.neg hG hJ⟩, by simpa using wide na⟩
      refine ⟨-d, toV2_neg rd, rn, sd.neg, neg_ne2 nd, Or.inl ⟨a, a', rfl, va, ra, sa, ?_⟩⟩
      rw [show - -d = d by ext <;> simp, ← va]
      exact not_le.1 hle)
    exact ⟨o, ho, h1, h2⟩

/-- **C106, 2D, any rounded arithmetic of the standard model**: for polygons, rectangles, lines and particles with coordinates of at most `M`, GJK in rounded arithmetic answers, and when it ends with a
miss the shapes overlap by no more than rounding errors, in some direction. -/
theorem c106_2d (h : Std R u η Ω) (hM : 1 ≤ M) (hΩ : 2 ^ 23 * M ^ 4 ≤ Ω) {eps : Fl R} (heps : 0 ≤ eps) (hs : s.Fits R M) (ht : t.Fits R M) (hD : Fits2 R M D) (hF : Fits2 R M E)
    {G J : ℕ} (hG : KeepsGr R G J) (hJ : 6 ≤ J) (hG0 : 0 < G) (hηu : η * (G : ℝ) ^ 6 ≤ u) (gs : s.Fine G) (gt : t.Fine G) (gD : Fine2 G D) (gE : Fine2 G E) (n : Nat) :
    ∃ o, gjkRunG2 eps n ((s.toFl R).supportG (decF R D)) ((t.toFl R).supportG (decF R E)) (pointG2 (decF R D) 0) (pointG2 (decF R E) 0) = .ok o ∧
      (o = .miss → NearlySeparated (1536 * (u * M)) (Image D.tr s.prim.Points) (Image E.tr t.prim.Points)) := by
  obtain ⟨o, ho, h1, -⟩ := run_near h hM hΩ heps hs ht hD hF hG hJ hG0 hηu gs gt gD gE n
  exact ⟨o, ho, h1⟩

/-! ## `f64` -/

theorem rep64_of_rep {x : ℝ} (h : Rep binary64 x) : Rep64 x := by
  unfold Rep at h
  rcases Dbvt.f64_cases (toF binary64 x) with e | e | ⟨r, hr, e⟩
  · rw [e] at h
    exact absurd h.symm (EReal.coe_ne_bot x)
  · rw [e] at h
    exact absurd h.symm (EReal.coe_ne_top x)
  · rw [e] at h
    have : r = x := EReal.coe_injective h
    rwa [← this]
theorem toF64 {r : ℝ} (h : Rep64 r) : toF binary64 r = Dbvt.F64.fin r h := binary64.rnd_val (Dbvt.F64.fin r h)

/-- `f64` is the standard model with unit roundoff `2^-53`, underflow `2^-1075`, up to `2^1022`. -/
theorem std64 : Std binary64 ((2 : ℝ) ^ (-53 : ℤ)) ((2 : ℝ) ^ (-1075 : ℤ)) ((2 : ℝ) ^ (1022 : ℤ)) where
  u0 := (zpow_pos (by norm_num) _).le
  u1 := by
    have : (2 : ℝ) ^ (-53 : ℤ) ≤ (2 : ℝ) ^ (-4 : ℤ) := zpow_le_zpow_right₀ (by norm_num) (by norm_num)
    norm_num at this ⊢
  η0 := (zpow_pos (by norm_num) _).le
  η1 := by
    have h : (2 : ℝ) ^ (-1075 : ℤ) ≤ (2 : ℝ) ^ (-4 : ℤ) := zpow_le_zpow_right₀ (by norm_num) (by norm_num)
    have e : (2 : ℝ) ^ (-4 : ℤ) = 1 / 16 := by norm_num
    rwa [e] at h
  two := rep_of_rep64 ⟨2, 0, by norm_num, by norm_num, by norm_num, by norm_num⟩
  err x hx := by
    obtain ⟨y, hy, e, d⟩ := Dbvt.rnd64_err hx
    exact ⟨y, rep_of_rep64 hy, by rw [toF64 hy]; exact e, d⟩
  odd x y hx hy e := by
    obtain ⟨r, hr, e1, e2⟩ := Dbvt.rnd64_neg (lt_over64 hx)
    have hy' := rep64_of_rep hy
    rw [toF64 hy'] at e
    have : r = y := by
      have e3 : toF binary64 x = Dbvt.F64.fin r hr := e1
      rw [e] at e3
      exact (Dbvt.fin_inj e3).symm
    subst this
    exact ⟨rep_of_rep64 (Dbvt.rep64_neg hr), by rw [toF64 (Dbvt.rep64_neg hr)]; exact e2⟩
  sub x y hx hy e := by
    have hx' := rep64_of_rep hx
    have hy' := rep64_of_rep hy
    have ez : toF binary64 0 = Dbvt.F64.fin 0 Dbvt.rep64_zero := toF64 Dbvt.rep64_zero
    rw [ez] at e
    rcases lt_trichotomy x y with h | h | h
    · exfalso
      have h1 := Dbvt.rnd64_sub_pos hy' hx' h
      have e' : Dbvt.rnd64 ((x - y : ℝ) : EReal) = Dbvt.F64.fin 0 Dbvt.rep64_zero := e
      by_cases hb : |x - y| < 1
      · -- the other difference is the negation
        obtain ⟨r, hr, e1, e2⟩ := Dbvt.rnd64_neg (x := x - y) (hb.trans (by
          have := Dbvt.rep64_lt Dbvt.rep64_one
          rwa [abs_one] at this))
        rw [e'] at e1
        have hr0 : r = 0 := (Dbvt.fin_inj e1).symm
        subst hr0
        rw [neg_sub] at e2
        rw [e2] at h1
        exact absurd (Dbvt.fin_le.2 (by simp)) (not_le.2 h1)
      · have h2 : x - y ≤ -1 := by
          rw [abs_of_neg (by linarith)] at hb
          linarith
        have h3 : Dbvt.rnd64 ((x - y : ℝ) : EReal) ≤ Dbvt.rnd64 ((-1 : ℝ) : EReal) := binary64.rnd_mono (EReal.coe_le_coe_iff.2 h2)
        have h4 : Dbvt.rnd64 ((-1 : ℝ) : EReal) = Dbvt.F64.fin (-1) (Dbvt.rep64_neg Dbvt.rep64_one) := toF64 (Dbvt.rep64_neg Dbvt.rep64_one)
        rw [e', h4] at h3
        have := Dbvt.fin_le.1 h3
        norm_num at this
    · exact h
    · exfalso
      have h1 := Dbvt.rnd64_sub_pos hx' hy' h
      exact absurd e h1.ne'

/-- The run in `f64`. -/
theorem run_f64 (hM : 1 ≤ M) (hM' : M ≤ 2 ^ 249) {s t : Flat2 ℝ} {D E : Dec2 ℝ} (hs : s.Fits binary64 M) (ht : t.Fits binary64 M) (hD : Fits2 binary64 M D) (hF : Fits2 binary64 M E)
    (gs : s.Fine (2 ^ 170)) (gt : t.Fine (2 ^ 170)) (gD : Fine2 (2 ^ 170) D) (gE : Fine2 (2 ^ 170) E) (n : Nat) :
    ∃ o, gjkRunG2 (toF binary64 eps64) n ((s.toFl binary64).supportG (decF binary64 D)) ((t.toFl binary64).supportG (decF binary64 E)) (pointG2 (decF binary64 D) 0) (pointG2 (decF binary64 E) 0) = .ok o ∧
      (o = .miss → NearlySeparated (1536 * ((2 : ℝ) ^ (-53 : ℤ) * M)) (Image D.tr s.prim.Points) (Image E.tr t.prim.Points)) ∧
      (∀ x, o = .hit x → x.length = 3 ∧ ∀ p ∈ x, NearPoint binary64 (40 * ((2 : ℝ) ^ (-53 : ℤ) * M)) (Image D.tr s.prim.Points) (Image E.tr t.prim.Points) p) := by
  have heps : (0 : Fl binary64) ≤ toF binary64 eps64 := by
    rw [← toF_zero]
    exact (toF_le rep_zero (rep_of_rep64 ⟨1, -52, by norm_num, by norm_num, by norm_num, by simp [eps64]⟩)).2 (zpow_pos (by norm_num) _).le
  refine run_near std64 hM ?_ heps hs ht hD hF (keeps64 (k := 170) (J := 6) (by norm_num)) le_rfl (by positivity) ?_ gs gt gD gE n
  · have h1 : M ^ 4 ≤ (2 ^ 249) ^ 4 := pow_le_pow_left₀ (by linarith) hM' 4
    rw [← pow_mul] at h1
    have h2 : (2 : ℝ) ^ 23 * M ^ 4 ≤ 2 ^ 23 * 2 ^ (249 * 4) := mul_le_mul_of_nonneg_left h1 (by positivity)
    rw [← pow_add] at h2
    refine h2.trans ?_
    rw [← zpow_natCast]
    exact zpow_le_zpow_right₀ (by norm_num) (by norm_num)
  · rw [Nat.cast_pow, Nat.cast_ofNat, ← pow_mul, ← zpow_natCast, ← zpow_add₀ (by norm_num)]
    exact zpow_le_zpow_right₀ (by norm_num) (by norm_num)

/-- **C106, `f64`**: two polygons (of at most nine vertices), rectangles, squares, lines or particles, with transforms without scaling; all coordinates are numbers of `f64`, at most `M ≤ 2^249`, and
multiples of `2^-170` (which every `f64` of at least `2^-117` is). GJK in `f64` does not panic, and when it ends with a miss then in some direction the shapes overlap by at most `1536 * 2^-53 * M`. -/
theorem c106_f64_2d (hM : 1 ≤ M) (hM' : M ≤ 2 ^ 249) {s t : Flat2 ℝ} {D E : Dec2 ℝ} (hs : s.Fits binary64 M) (ht : t.Fits binary64 M) (hD : Fits2 binary64 M D) (hF : Fits2 binary64 M E)
    (gs : s.Fine (2 ^ 170)) (gt : t.Fine (2 ^ 170)) (gD : Fine2 (2 ^ 170) D) (gE : Fine2 (2 ^ 170) E) (n : Nat) :
    ∃ o, gjkRunG2 (toF binary64 eps64) n ((s.toFl binary64).supportG (decF binary64 D)) ((t.toFl binary64).supportG (decF binary64 E)) (pointG2 (decF binary64 D) 0) (pointG2 (decF binary64 E) 0) = .ok o ∧
      (o = .miss → NearlySeparated (1536 * ((2 : ℝ) ^ (-53 : ℤ) * M)) (Image D.tr s.prim.Points) (Image E.tr t.prim.Points)) := by
  obtain ⟨o, ho, h1, -⟩ := run_f64 hM hM' hs ht hD hF gs gt gD gE n
  exact ⟨o, ho, h1⟩

/-- **C106, `f64`**: shapes that overlap by more than rounding are not missed: GJK in `f64` does not say that they do not intersect. -/
theorem c106_f64_deep (hM : 1 ≤ M) (hM' : M ≤ 2 ^ 249) {s t : Flat2 ℝ} {D E : Dec2 ℝ} (hs : s.Fits binary64 M) (ht : t.Fits binary64 M) (hD : Fits2 binary64 M D) (hF : Fits2 binary64 M E)
    (gs : s.Fine (2 ^ 170)) (gt : t.Fine (2 ^ 170)) (gD : Fine2 (2 ^ 170) D) (gE : Fine2 (2 ^ 170) E) {r : ℝ} (hr : 1536 * ((2 : ℝ) ^ (-53 : ℤ) * M) < r)
    (hdeep : Deep2 (Image D.tr s.prim.Points) (Image E.tr t.prim.Points) r) (n : Nat) :
    ∃ o, gjkRunG2 (toF binary64 eps64) n ((s.toFl binary64).supportG (decF binary64 D)) ((t.toFl binary64).supportG (decF binary64 E)) (pointG2 (decF binary64 D) 0) (pointG2 (decF binary64 E) 0) = .ok o ∧
      o ≠ .miss := by
  obtain ⟨o, ho, h⟩ := c106_f64_2d hM hM' hs ht hD hF gs gt gD gE n
  exact ⟨o, ho, fun e => deep_not_nearly hr (mul_nonneg (by norm_num) (mul_nonneg (zpow_pos (by norm_num) _).le (by linarith))) hdeep (h e)⟩

/-- The placements of the example: at the origin, and turned by the `f64` nearest to `(0.6, 0.8)` and moved by `(1, 1/3)`. -/
def caseD : Dec2 ℝ := ⟨1, ⟨⟨1, 0⟩, ⟨0, 1⟩⟩, 0⟩
def caseE : Dec2 ℝ := ⟨1, ⟨⟨5404319552844595 / 2 ^ 53, 7205759403792794 / 2 ^ 53⟩, ⟨-7205759403792794 / 2 ^ 53, 5404319552844595 / 2 ^ 53⟩⟩, ⟨1, 6004799503160661 / 2 ^ 54⟩⟩
/-- Two squares with side 4 at these places meet the hypotheses. -/
theorem c106_case : ((Flat2.square 4 : Flat2 ℝ).Fits binary64 2 ∧ (Flat2.square 4 : Flat2 ℝ).Fine (2 ^ 170)) ∧ Fits2 binary64 2 caseD ∧ Fits2 binary64 2 caseE ∧ Fine2 (2 ^ 170) caseD ∧ Fine2 (2 ^ 170) caseE ∧
    Deep2 (Image caseD.tr (Flat2.square 4 : Flat2 ℝ).prim.Points) (Image caseE.tr (Flat2.square 4 : Flat2 ℝ).prim.Points) (1 / 4) := by
  have rep : ∀ (m : ℤ) (k : ℕ), |m| < 2 ^ 53 → k ≤ 54 → Rep binary64 (m / 2 ^ k) := by
    intro m k hm hk
    refine rep_of_rep64 ⟨m, -k, hm, by omega, by omega, ?_⟩
    rw [zpow_neg, zpow_natCast, div_eq_mul_inv]
  have gr : ∀ (m : ℤ) (k : ℕ), k ≤ 54 → Gr (2 ^ 170) 1 (m / 2 ^ k) := by
    intro m k hk
    obtain ⟨l, hl⟩ := Nat.exists_eq_add_of_le (show k ≤ 170 by omega)
    refine ⟨m * 2 ^ l, ?_⟩
    rw [hl, pow_one, pow_add, Nat.cast_mul, Nat.cast_pow, Nat.cast_pow]
    push_cast
    field_simp
  have r2 := rep 2 0 (by norm_num) (by norm_num)
  have r4 := rep 4 0 (by norm_num) (by norm_num)
  have r0 := rep 0 0 (by norm_num) (by norm_num)
  have r1 := rep 1 0 (by norm_num) (by norm_num)
  have rc := rep 5404319552844595 53 (by norm_num) (by norm_num)
  have rs := rep 7205759403792794 53 (by norm_num) (by norm_num)
  have rn := rep (-7205759403792794) 53 (by norm_num) (by norm_num)
  have rd := rep 6004799503160661 54 (by norm_num) (by norm_num)
  have g2 := gr 2 0 (by norm_num)
  have g0 := gr 0 0 (by norm_num)
  have g1 := gr 1 0 (by norm_num)
  have gc := gr 5404319552844595 53 (by norm_num)
  have gs := gr 7205759403792794 53 (by norm_num)
  have gn := gr (-7205759403792794) 53 (by norm_num)
  have gd := gr 6004799503160661 54 (by norm_num)
  push_cast at r2 r4 r0 r1 rc rs rn rd g2 g0 g1 gc gs gn gd
  simp only [pow_zero, div_one] at r2 r4 r0 r1 g2 g0 g1
  have e2 : (4 : ℝ) / 2 = 2 := by norm_num
  have hs : (Flat2.square 4 : Flat2 ℝ).Fits binary64 2 := ⟨by norm_num, r4, by rw [e2]; exact r2, by norm_num⟩
  have fs : (Flat2.square 4 : Flat2 ℝ).Fine (2 ^ 170) := by
    show Gr _ _ _
    rw [e2]; exact g2
  have hD : Fits2 binary64 2 (⟨1, ⟨⟨1, 0⟩, ⟨0, 1⟩⟩, 0⟩ : Dec2 ℝ) := ⟨rfl, ⟨r1, r0⟩, ⟨r0, r1⟩, ⟨by norm_num, by norm_num⟩, ⟨by norm_num, by norm_num⟩, ⟨r0, r0⟩, ⟨by simp, by simp⟩⟩
  have hE : Fits2 binary64 2 (⟨1, ⟨⟨5404319552844595 / 2 ^ 53, 7205759403792794 / 2 ^ 53⟩, ⟨-7205759403792794 / 2 ^ 53, 5404319552844595 / 2 ^ 53⟩⟩, ⟨1, 6004799503160661 / 2 ^ 54⟩⟩ : Dec2 ℝ) :=
    ⟨rfl, ⟨rc, rs⟩, ⟨rn, rc⟩, ⟨by norm_num [abs_le], by norm_num [abs_le]⟩, ⟨by norm_num [abs_le], by norm_num [abs_le]⟩, ⟨r1, rd⟩, ⟨by norm_num, by norm_num [abs_le]⟩⟩
  refine ⟨⟨hs, fs⟩, hD, hE, ⟨⟨g1, g0⟩, ⟨g0, g1⟩, ⟨g0, g0⟩⟩, ⟨⟨gc, gs⟩, ⟨gn, gc⟩, ⟨g1, gd⟩⟩, ?_⟩
  intro t ht
  have hx : |t.x| ≤ 1 / 4 := (Real.abs_le_sqrt (by simp only [V2.dot]; nlinarith [mul_self_nonneg t.y])).trans ht
  have hy : |t.y| ≤ 1 / 4 := (Real.abs_le_sqrt (by simp only [V2.dot]; nlinarith [mul_self_nonneg t.x])).trans ht
  rw [abs_le] at hx hy
  refine ⟨⟨1 + t.x, 6004799503160661 / 2 ^ 54 + t.y⟩, ⟨1, 6004799503160661 / 2 ^ 54⟩, ⟨⟨1 + t.x, 6004799503160661 / 2 ^ 54 + t.y⟩, ?_, ?_⟩, ⟨0, ?_, ?_⟩, ?_⟩
  · show (-((4 : ℝ) / 2) ≤ 1 + t.x ∧ 1 + t.x ≤ 4 / 2) ∧ (-((4 : ℝ) / 2) ≤ 6004799503160661 / 2 ^ 54 + t.y ∧ 6004799503160661 / 2 ^ 54 + t.y ≤ 4 / 2)
    norm_num
    exact ⟨⟨by linarith, by linarith⟩, ⟨by linarith, by linarith⟩⟩
  · ext <;> simp [caseD, caseE, Dec2.tr, M2.apply]
  · show (-((4 : ℝ) / 2) ≤ 0 ∧ (0 : ℝ) ≤ 4 / 2) ∧ (-((4 : ℝ) / 2) ≤ 0 ∧ (0 : ℝ) ≤ 4 / 2)
    norm_num
  · ext <;> simp [caseD, caseE, Dec2.tr, M2.apply]
  · ext <;> simp
/-- A case of the theorem: a square with side 4 at the origin and another one, turned by the `f64` nearest to `(0.6, 0.8)` and moved by `(1, 1/3)`, are not missed. -/
theorem c106_example (n : Nat) : ∃ o, gjkRunG2 (toF binary64 eps64) n (((Flat2.square 4).toFl binary64).supportG (decF binary64 caseD)) (((Flat2.square 4).toFl binary64).supportG (decF binary64 caseE))
    (pointG2 (decF binary64 caseD) 0) (pointG2 (decF binary64 caseE) 0) = .ok o ∧ o ≠ .miss := by
  obtain ⟨⟨hs, fs⟩, hD, hE, gD, gE, hdeep⟩ := c106_case
  exact c106_f64_deep (M := 2) (by norm_num) (by norm_num) hs hs hD hE fs fs gD gE (by norm_num) hdeep n
end
end Verif.Minkowski
