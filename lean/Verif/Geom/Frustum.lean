import Verif.Geom.Plane
/-!
# Frustum: model of `src/frustum.rs`, `src/bound.rs` and the `relate_plane` implementations; C41-C43
-/
namespace Verif.Geom
set_option linter.unusedSectionVars false
variable {K : Type} [Field K] [LinearOrder K]

/-- `Relation`, `src/bound.rs:14-21` -/
inductive Relation where
  | In
  | Cross
  | Out
  deriving DecidableEq, Repr

/-- `cmp::max` for the derived order `In < Cross < Out`, `src/bound.rs:12-21` -/
def Relation.max : Relation → Relation → Relation
  | .Out, _ => .Out
  | _, .Out => .Out
  | .Cross, _ => .Cross
  | _, .Cross => .Cross
  | .In, .In => .In

/-- `Point3: PlaneBound`, `src/bound.rs:53-62` -/
def V3.relatePlane (p : V3 K) (plane : Plane K) : Relation :=
  let dist := p.dot plane.n
  if dist > plane.d then .In else if dist < plane.d then .Out else .Cross
/-- `Aabb3: PlaneBound`, `src/volume/aabb/aabb3.rs:256-265` -/
def Aabb3.relatePlane (b : Aabb3 K) (plane : Plane K) : Relation :=
  let first := b.min.relatePlane plane
  if b.toCorners.tail.any (fun p => p.relatePlane plane ≠ first) then .Cross else first
/-- `Sphere: PlaneBound`, `src/volume/sphere.rs:107-116` -/
noncomputable def Sphere.relatePlane (s : Sphere) (plane : Plane ℝ) : Relation :=
  let dist := s.center.dot plane.n - plane.d
  if dist > s.radius then .In else if dist < -s.radius then .Out else .Cross

/-- `Frustum`, `src/frustum.rs:17-30` -/
structure Frustum (K : Type) where
  left : Plane K
  right : Plane K
  bottom : Plane K
  top : Plane K
  near : Plane K
  far : Plane K

/-- The list of planes the classification goes through, `src/frustum.rs:84-91` -/
def Frustum.planes (f : Frustum K) : List (Plane K) := [f.left, f.right, f.top, f.bottom, f.near, f.far]
/-- `Frustum::contains`, `src/frustum.rs:83-101`; `relate` is `bound.relate_plane` -/
def Frustum.contains (f : Frustum K) (relate : Plane K → Relation) : Relation :=
  f.planes.foldl (fun cur p => cur.max (relate p)) .In

/-- `cgmath::Matrix4`, by rows (`mat.row(i)`) -/
structure M4 (K : Type) where
  r0 : V4 K
  r1 : V4 K
  r2 : V4 K
  r3 : V4 K

/-- `Vector4: Add` -/
def V4.add (a b : V4 K) : V4 K := ⟨a.x + b.x, a.y + b.y, a.z + b.z, a.w + b.w⟩
/-- `Vector4: Sub` -/
def V4.sub (a b : V4 K) : V4 K := ⟨a.x - b.x, a.y - b.y, a.z - b.z, a.w - b.w⟩
/-- `Vector4: dot` -/
def V4.dot (a b : V4 K) : K := a.x * b.x + a.y * b.y + a.z * b.z + a.w * b.w
/-- `Point3::to_homogeneous` -/
def V3.hom (p : V3 K) : V4 K := ⟨p.x, p.y, p.z, 1⟩
/-- `Matrix4 * Vector4` -/
def M4.mulVec (m : M4 K) (v : V4 K) : V4 K := ⟨m.r0.dot v, m.r1.dot v, m.r2.dot v, m.r3.dot v⟩

/-- `Frustum::from_matrix4`, `src/frustum.rs:53-80` (argument order of `Frustum::new`: left, right, bottom, top, near, far) -/
noncomputable def Frustum.fromMatrix4 (m : M4 ℝ) : Option (Frustum ℝ) := do
  let left ← (Plane.fromVector4Alt (m.r3.add m.r0)).normalize
  let right ← (Plane.fromVector4Alt (m.r3.sub m.r0)).normalize
  let bottom ← (Plane.fromVector4Alt (m.r3.add m.r1)).normalize
  let top ← (Plane.fromVector4Alt (m.r3.sub m.r1)).normalize
  let near ← (Plane.fromVector4Alt (m.r3.add m.r2)).normalize
  let far ← (Plane.fromVector4Alt (m.r3.sub m.r2)).normalize
  some ⟨left, right, bottom, top, near, far⟩

/-- `PlaneBound::relate_clip_space` (default method), `src/bound.rs:28-49` -/
noncomputable def relateClipSpace (relate : Plane ℝ → Relation) (m : M4 ℝ) : Relation :=
  match Frustum.fromMatrix4 m with
  | some f => [f.left, f.right, f.top, f.bottom, f.near, f.far].foldl (fun cur p => cur.max (relate p)) .In
  | none => .Cross

/-- `Point3::relate_clip_space`, `src/bound.rs:64-76` (on a linear order `partial_cmp` is total) -/
def V3.relateClipSpace (p : V3 K) (m : M4 K) : Relation :=
  let q := m.mulVec p.hom
  if |q.x| < q.w ∧ |q.y| < q.w ∧ |q.z| < q.w then .In
  else if |q.x| > q.w ∨ |q.y| > q.w ∨ |q.z| > q.w then .Out
  else .Cross

/-- `cgmath::Ortho` -/
structure Ortho (K : Type) where
  left : K
  right : K
  bottom : K
  top : K
  near : K
  far : K

/-- `Ortho::to_frustum`, `src/frustum.rs:151-160` -/
def Ortho.toFrustum (o : Ortho K) : Frustum K where
  left := Plane.fromAbcd 1 0 0 o.left
  right := Plane.fromAbcd (-1) 0 0 o.right
  bottom := Plane.fromAbcd 0 1 0 o.bottom
  top := Plane.fromAbcd 0 (-1) 0 o.top
  near := Plane.fromAbcd 0 0 (-1) o.near
  far := Plane.fromAbcd 0 0 1 o.far

/-! ## Specification vocabulary -/

/-- Strictly on the inner (normal) side of the plane `n·p = d`. -/
def Plane.Inside (P : Plane K) (p : V3 K) : Prop := P.n.x * p.x + P.n.y * p.y + P.n.z * p.z > P.d
/-- Strictly on the outer side of the plane `n·p = d`. -/
def Plane.Outside (P : Plane K) (p : V3 K) : Prop := P.n.x * p.x + P.n.y * p.y + P.n.z * p.z < P.d

/-- `P` is one of the six planes of the frustum. -/
def Frustum.HasPlane (f : Frustum K) (P : Plane K) : Prop :=
  P = f.left ∨ P = f.right ∨ P = f.bottom ∨ P = f.top ∨ P = f.near ∨ P = f.far

/-- `relate` classifies the point set `S` exactly against the plane. -/
def Classifies (relate : Plane K → Relation) (S : V3 K → Prop) (P : Plane K) : Prop :=
  (relate P = .In ↔ ∀ p, S p → P.Inside p) ∧ (relate P = .Out ↔ ∀ p, S p → P.Outside p)

variable [IsStrictOrderedRing K]

/-! ## C41 -/

theorem Relation.max_in {a b : Relation} : a.max b = .In ↔ a = .In ∧ b = .In := by
  cases a <;> cases b <;> simp [Relation.max]
theorem Relation.max_out {a b : Relation} : a.max b = .Out ↔ a = .Out ∨ b = .Out := by
  cases a <;> cases b <;> simp [Relation.max]

theorem foldl_in (relate : Plane K → Relation) (l : List (Plane K)) (a : Relation) :
    l.foldl (fun cur p => cur.max (relate p)) a = .In ↔ a = .In ∧ ∀ P ∈ l, relate P = .In := by
  induction l generalizing a with
  | nil => simp
  | cons P l ih => simp [ih, Relation.max_in]; tauto
theorem foldl_out (relate : Plane K → Relation) (l : List (Plane K)) (a : Relation) :
    l.foldl (fun cur p => cur.max (relate p)) a = .Out ↔ a = .Out ∨ ∃ P ∈ l, relate P = .Out := by
  induction l generalizing a with
  | nil => simp
  | cons P l ih => simp [ih, Relation.max_out]; tauto

theorem mem_planes (f : Frustum K) (P : Plane K) : P ∈ f.planes ↔ f.HasPlane P := by
  simp [Frustum.planes, Frustum.HasPlane]; tauto

theorem contains_in (f : Frustum K) (relate : Plane K → Relation) :
    f.contains relate = .In ↔ ∀ P, f.HasPlane P → relate P = .In := by
  simp only [Frustum.contains, foldl_in, true_and, mem_planes]
theorem contains_out (f : Frustum K) (relate : Plane K → Relation) :
    f.contains relate = .Out ↔ ∃ P, f.HasPlane P ∧ relate P = .Out := by
  simp [Frustum.contains, foldl_out, mem_planes]

/-- C41, single plane: a point is classified by the side it lies on. -/
theorem c41_point (q : V3 K) (P : Plane K) : Classifies q.relatePlane (fun p => p = q) P := by
  have hd : q.dot P.n = P.n.x * q.x + P.n.y * q.y + P.n.z * q.z := by simp only [V3.dot]; ring
  simp only [Classifies, forall_eq, V3.relatePlane, Plane.Inside, Plane.Outside, ← hd]
  constructor
  · split
    · simp_all
    · split <;> simp_all
  · split
    · rename_i h; simp; exact h.le
    · split <;> simp_all

theorem inside_interp (P : Plane K) {p q : V3 K} {t : K} (h0 : 0 ≤ t) (h1 : t ≤ 1) (hp : P.Inside p) (hq : P.Inside q) :
    P.Inside (p + (q - p) * t) := by
  unfold Plane.Inside at *
  have : P.n.x * (p + (q - p) * t).x + P.n.y * (p + (q - p) * t).y + P.n.z * (p + (q - p) * t).z =
      (P.n.x * p.x + P.n.y * p.y + P.n.z * p.z) * (1 - t) + (P.n.x * q.x + P.n.y * q.y + P.n.z * q.z) * t := by
    simp; ring
  rw [this]
  generalize P.n.x * p.x + P.n.y * p.y + P.n.z * p.z = a at *
  generalize P.n.x * q.x + P.n.y * q.y + P.n.z * q.z = b at *
  rcases h0.lt_or_eq with h | h
  · nlinarith [mul_pos h (sub_pos.2 hq), mul_nonneg (sub_nonneg.2 h1) (sub_pos.2 hp).le]
  · subst h; linarith
theorem outside_interp (P : Plane K) {p q : V3 K} {t : K} (h0 : 0 ≤ t) (h1 : t ≤ 1) (hp : P.Outside p) (hq : P.Outside q) :
    P.Outside (p + (q - p) * t) := by
  unfold Plane.Outside at *
  have : P.n.x * (p + (q - p) * t).x + P.n.y * (p + (q - p) * t).y + P.n.z * (p + (q - p) * t).z =
      (P.n.x * p.x + P.n.y * p.y + P.n.z * p.z) * (1 - t) + (P.n.x * q.x + P.n.y * q.y + P.n.z * q.z) * t := by
    simp; ring
  rw [this]
  generalize P.n.x * p.x + P.n.y * p.y + P.n.z * p.z = a at *
  generalize P.n.x * q.x + P.n.y * q.y + P.n.z * q.z = b at *
  rcases h0.lt_or_eq with h | h
  · nlinarith [mul_pos h (sub_pos.2 hq), mul_nonneg (sub_nonneg.2 h1) (sub_pos.2 hp).le]
  · subst h; linarith

theorem corners_mem {b : Aabb3 K} (hb : b.Valid) {c : V3 K} (hc : c ∈ b.toCorners) : b.Mem c := by
  obtain ⟨h1, h2, h3⟩ := hb
  simp only [Aabb3.toCorners, List.mem_cons, List.not_mem_nil, or_false] at hc
  rcases hc with rfl | rfl | rfl | rfl | rfl | rfl | rfl | rfl <;> simp [Aabb3.Mem, *]

theorem aabb_relate (b : Aabb3 K) (P : Plane K) (R : Relation) (hR : R ≠ .Cross) :
    b.relatePlane P = R ↔ ∀ c ∈ b.toCorners, c.relatePlane P = R := by
  have hc : b.toCorners = b.min :: b.toCorners.tail := rfl
  rw [hc]
  simp only [List.forall_mem_cons, Aabb3.relatePlane]
  split
  · rename_i h
    simp only [List.any_eq_true, decide_eq_true_eq] at h
    obtain ⟨c, hc, hne⟩ := h
    refine ⟨fun h => absurd h.symm hR, ?_⟩
    rintro ⟨h1, h2⟩
    exact absurd (by rw [h1, h2 c hc]) hne
  · rename_i h
    simp only [List.any_eq_true, decide_eq_true_eq, not_exists, not_and, not_not] at h
    constructor
    · intro h1
      exact ⟨h1, fun c hc => by rw [h c hc, h1]⟩
    · exact fun h => h.1

/-- C41, single plane: a normalised box is `In` / `Out` exactly if all its points are strictly inside / outside. -/
theorem c41_box (b : Aabb3 K) (hb : b.Valid) (P : Plane K) : Classifies b.relatePlane b.Mem P := by
  have hpt := fun c => c41_point c P
  simp only [Classifies, forall_eq] at hpt
  refine ⟨?_, ?_⟩
  · rw [aabb_relate b P .In (by simp)]
    constructor
    · intro h p hp
      exact b.induct P.Inside (fun p q t => inside_interp P) (fun c hc => (hpt c).1.1 (h c hc)) hp
    · intro h c hc
      exact (hpt c).1.2 (h c (corners_mem hb hc))
  · rw [aabb_relate b P .Out (by simp)]
    constructor
    · intro h p hp
      exact b.induct P.Outside (fun p q t => outside_interp P) (fun c hc => (hpt c).2.1 (h c hc)) hp
    · intro h c hc
      exact (hpt c).2.2 (h c (corners_mem hb hc))

/-- C41, single plane: the same for balls, for a plane with unit normal. -/
theorem c41_sphere (s : Sphere) (hr : 0 ≤ s.radius) (P : Plane ℝ) (hn : P.n.norm = 1) :
    Classifies s.relatePlane s.Mem P := by
  have hnn : P.n.dot P.n = 1 := by rw [← V3.norm_sq, hn]; norm_num
  have hdot : ∀ p : V3 ℝ, P.n.x * p.x + P.n.y * p.y + P.n.z * p.z = s.center.dot P.n + (p - s.center).dot P.n := by
    intro p; simp [V3.dot]; ring
  have hle : ∀ p, s.Mem p → |(p - s.center).dot P.n| ≤ s.radius := by
    intro p hp
    unfold Sphere.Mem at hp
    rw [abs_le]
    have h1 := V3.cauchy (p - s.center) P.n
    have h2 := V3.cauchy (-(p - s.center)) P.n
    rw [V3.norm_neg, hn, mul_one] at h2
    rw [hn, mul_one] at h1
    have : (-(p - s.center)).dot P.n = -(p - s.center).dot P.n := by simp [V3.dot]; ring
    rw [this] at h2
    constructor <;> linarith
  have hex : ∀ e : ℝ, |e| = 1 → s.Mem (s.center + P.n * (e * s.radius)) ∧ (s.center + P.n * (e * s.radius) - s.center).dot P.n = e * s.radius := by
    intro e he
    have : s.center + P.n * (e * s.radius) - s.center = P.n * (e * s.radius) := by ext <;> simp
    constructor
    · unfold Sphere.Mem
      rw [this, V3.norm_smul, hn, abs_mul, he, abs_of_nonneg hr]; simp
    · rw [this]
      have : (P.n * (e * s.radius)).dot P.n = P.n.dot P.n * (e * s.radius) := by simp [V3.dot]; ring
      rw [this, hnn, one_mul]
  have e1 := hex 1 (by simp)
  have e2 := hex (-1) (by simp)
  constructor
  · unfold Sphere.relatePlane
    dsimp only
    constructor
    · intro h p hp
      have : s.center.dot P.n - P.d > s.radius := by
        by_contra hc
        rw [if_neg hc] at h
        split at h <;> simp at h
      have := abs_le.1 (hle p hp)
      unfold Plane.Inside
      rw [hdot]
      linarith [this.1]
    · intro h
      have := h _ e2.1
      unfold Plane.Inside at this
      rw [hdot, e2.2] at this
      rw [if_pos (by linarith)]
  · unfold Sphere.relatePlane
    dsimp only
    constructor
    · intro h p hp
      have : s.center.dot P.n - P.d < -s.radius := by
        by_contra hc
        rw [if_neg hc] at h
        split at h <;> simp at h
      have := abs_le.1 (hle p hp)
      unfold Plane.Outside
      rw [hdot]
      linarith [this.2]
    · intro h
      have := h _ e1.1
      unfold Plane.Outside at this
      rw [hdot, e1.2] at this
      rw [if_neg (by linarith), if_pos (by linarith)]

/-- C41 for a whole frustum and a bound that every plane classifies exactly: `Out` exactly if some plane has the whole
bound strictly outside, `In` exactly if the whole bound is strictly inside all six planes. -/
theorem c41_frustum (f : Frustum K) (relate : Plane K → Relation) (S : V3 K → Prop)
    (h : ∀ P, f.HasPlane P → Classifies relate S P) :
    (f.contains relate = .Out ↔ ∃ P, f.HasPlane P ∧ ∀ p, S p → P.Outside p) ∧
    (f.contains relate = .In ↔ ∀ p, S p → ∀ P, f.HasPlane P → P.Inside p) := by
  constructor
  · rw [contains_out]
    exact exists_congr fun P => and_congr_right fun hP => (h P hP).2
  · rw [contains_in]
    constructor
    · intro H p hp P hP; exact (h P hP).1.1 (H P hP) p hp
    · intro H P hP; exact (h P hP).1.2 fun p hp => H p hp P hP

/-- C41, points. -/
theorem c41_frustum_point (f : Frustum K) (q : V3 K) :
    (f.contains q.relatePlane = .Out ↔ ∃ P, f.HasPlane P ∧ P.Outside q) ∧
    (f.contains q.relatePlane = .In ↔ ∀ P, f.HasPlane P → P.Inside q) := by
  have := c41_frustum f q.relatePlane (fun p => p = q) (fun P _ => c41_point q P)
  simpa using this

/-- C41, boxes; and enlarging a box never turns `Cross` / `In` into `Out`. -/
theorem c41_frustum_box (f : Frustum K) (b : Aabb3 K) (hb : b.Valid) :
    (f.contains b.relatePlane = .Out ↔ ∃ P, f.HasPlane P ∧ ∀ p, b.Mem p → P.Outside p) ∧
    (f.contains b.relatePlane = .In ↔ ∀ p, b.Mem p → ∀ P, f.HasPlane P → P.Inside p) ∧
    (∀ big : Aabb3 K, big.Valid → big.contains b = true → f.contains b.relatePlane ≠ .Out → f.contains big.relatePlane ≠ .Out) := by
  obtain ⟨h1, h2⟩ := c41_frustum f b.relatePlane b.Mem (fun P _ => c41_box b hb P)
  refine ⟨h1, h2, ?_⟩
  intro big hv hc hne ho
  apply hne
  rw [h1]
  obtain ⟨P, hP, h⟩ := (c41_frustum f big.relatePlane big.Mem (fun P _ => c41_box big hv P)).1.1 ho
  exact ⟨P, hP, fun p hp => h p ((c26_contains3 _ _ hb).1 hc p hp)⟩

/-- C41, spheres; and enlarging a sphere never turns `Cross` / `In` into `Out`. -/
theorem c41_frustum_sphere (f : Frustum ℝ) (hf : ∀ P, f.HasPlane P → P.n.norm = 1) (s : Sphere) (hr : 0 ≤ s.radius) :
    (f.contains s.relatePlane = .Out ↔ ∃ P, f.HasPlane P ∧ ∀ p, s.Mem p → P.Outside p) ∧
    (f.contains s.relatePlane = .In ↔ ∀ p, s.Mem p → ∀ P, f.HasPlane P → P.Inside p) ∧
    (∀ big : Sphere, big.contains s = true → f.contains s.relatePlane ≠ .Out → f.contains big.relatePlane ≠ .Out) := by
  obtain ⟨h1, h2⟩ := c41_frustum f s.relatePlane s.Mem (fun P hP => c41_sphere s hr P (hf P hP))
  refine ⟨h1, h2, ?_⟩
  intro big hc hne ho
  have hbr : 0 ≤ big.radius := by
    have : (s.center - big.center).norm + s.radius ≤ big.radius := by simpa [Sphere.contains] using hc
    linarith [V3.norm_nonneg (s.center - big.center)]
  apply hne
  rw [h1]
  obtain ⟨P, hP, h⟩ := (c41_frustum f big.relatePlane big.Mem (fun P hP => c41_sphere big hbr P (hf P hP))).1.1 ho
  exact ⟨P, hP, fun p hp => h p ((c33_sphere _ _ hr).1 hc p hp)⟩

/-- The unit cube as a frustum; a box inside, one crossing and one outside. -/
def cubeFrustum : Frustum ℚ :=
  ⟨⟨⟨1, 0, 0⟩, -1⟩, ⟨⟨-1, 0, 0⟩, -1⟩, ⟨⟨0, 1, 0⟩, -1⟩, ⟨⟨0, -1, 0⟩, -1⟩, ⟨⟨0, 0, -1⟩, -1⟩, ⟨⟨0, 0, 1⟩, -1⟩⟩
example : cubeFrustum.contains (⟨⟨0, 0, 0⟩, ⟨1 / 2, 1 / 2, 1 / 2⟩⟩ : Aabb3 ℚ).relatePlane = .In ∧
    cubeFrustum.contains (⟨⟨0, 0, 0⟩, ⟨2, 1 / 2, 1 / 2⟩⟩ : Aabb3 ℚ).relatePlane = .Cross ∧
    cubeFrustum.contains (⟨⟨2, 0, 0⟩, ⟨3, 1 / 2, 1 / 2⟩⟩ : Aabb3 ℚ).relatePlane = .Out := by decide +kernel

/-! ## C42 -/

theorem normalize_relate (v : V4 ℝ) (P : Plane ℝ) (h : (Plane.fromVector4Alt v).normalize = some P) (p : V3 ℝ) :
    (P.Inside p ↔ 0 < v.dot p.hom) ∧ (P.Outside p ↔ v.dot p.hom < 0) := by
  obtain ⟨-, ⟨k, hk, e1, e2⟩, -⟩ := (c38_normalize _).2 P h
  have e : P.n.x * p.x + P.n.y * p.y + P.n.z * p.z - P.d = k * v.dot p.hom := by
    rw [e1, e2]; simp [Plane.fromVector4Alt, V4.dot, V3.hom]; ring
  unfold Plane.Inside Plane.Outside
  constructor
  · constructor
    · intro h; by_contra hc; push Not at hc; nlinarith
    · intro h; nlinarith [mul_pos hk h]
  · constructor
    · intro h; by_contra hc; push Not at hc; nlinarith
    · intro h; nlinarith [mul_pos hk (neg_pos.2 h)]

theorem fromMatrix4_some (m : M4 ℝ) (f : Frustum ℝ) (h : Frustum.fromMatrix4 m = some f) :
    (Plane.fromVector4Alt (m.r3.add m.r0)).normalize = some f.left ∧
    (Plane.fromVector4Alt (m.r3.sub m.r0)).normalize = some f.right ∧
    (Plane.fromVector4Alt (m.r3.add m.r1)).normalize = some f.bottom ∧
    (Plane.fromVector4Alt (m.r3.sub m.r1)).normalize = some f.top ∧
    (Plane.fromVector4Alt (m.r3.add m.r2)).normalize = some f.near ∧
    (Plane.fromVector4Alt (m.r3.sub m.r2)).normalize = some f.far := by
  simp only [Frustum.fromMatrix4, Option.bind_eq_bind, Option.bind_eq_some_iff, Option.some.injEq] at h
  obtain ⟨a, ha, b, hb, c, hc, d, hd, e, he, g, hg, rfl⟩ := h
  exact ⟨ha, hb, hc, hd, he, hg⟩

/-- C42: for a frustum extracted from a matrix, a point is classified exactly as its clip coordinates
`(x, y, z, w)` say; the planes have unit normals; and `Point3::relate_clip_space` agrees with the frustum classification (its
own and the default method). -/
theorem c42_clip_space (m : M4 ℝ) (f : Frustum ℝ) (hf : Frustum.fromMatrix4 m = some f) (p : V3 ℝ) :
    let q := m.mulVec p.hom
    (f.contains p.relatePlane = .In ↔ |q.x| < q.w ∧ |q.y| < q.w ∧ |q.z| < q.w) ∧
    (f.contains p.relatePlane = .Out ↔ |q.x| > q.w ∨ |q.y| > q.w ∨ |q.z| > q.w) ∧
    (p.relateClipSpace m = f.contains p.relatePlane) ∧
    (relateClipSpace p.relatePlane m = p.relateClipSpace m) ∧
    (∀ P, f.HasPlane P → P.n.norm = 1) := by
  intro q
  obtain ⟨h1, h2, h3, h4, h5, h6⟩ := fromMatrix4_some m f hf
  obtain ⟨a1, a2⟩ := normalize_relate _ _ h1 p
  obtain ⟨b1, b2⟩ := normalize_relate _ _ h2 p
  obtain ⟨c1, c2⟩ := normalize_relate _ _ h3 p
  obtain ⟨d1, d2⟩ := normalize_relate _ _ h4 p
  obtain ⟨e1, e2⟩ := normalize_relate _ _ h5 p
  obtain ⟨g1, g2⟩ := normalize_relate _ _ h6 p
  have hadd : ∀ a b : V4 ℝ, (a.add b).dot p.hom = a.dot p.hom + b.dot p.hom := by
    intro a b; simp [V4.add, V4.dot]; ring
  have hsub : ∀ a b : V4 ℝ, (a.sub b).dot p.hom = a.dot p.hom - b.dot p.hom := by
    intro a b; simp [V4.sub, V4.dot]; ring
  rw [hadd] at a1 a2 c1 c2 e1 e2
  rw [hsub] at b1 b2 d1 d2 g1 g2
  have hq : q = ⟨m.r0.dot p.hom, m.r1.dot p.hom, m.r2.dot p.hom, m.r3.dot p.hom⟩ := rfl
  obtain ⟨hO, hI⟩ := c41_frustum_point f p
  have hin : f.contains p.relatePlane = .In ↔ |q.x| < q.w ∧ |q.y| < q.w ∧ |q.z| < q.w := by
    rw [hI, hq]
    simp only [Frustum.HasPlane, forall_eq_or_imp, forall_eq, a1, b1, c1, d1, e1, g1, abs_lt]
    constructor
    · rintro ⟨x1, x2, x3, x4, x5, x6⟩
      refine ⟨⟨?_, ?_⟩, ⟨?_, ?_⟩, ?_, ?_⟩ <;> linarith
    · rintro ⟨⟨x1, x2⟩, ⟨x3, x4⟩, x5, x6⟩
      refine ⟨?_, ?_, ?_, ?_, ?_, ?_⟩ <;> linarith
  have hout : f.contains p.relatePlane = .Out ↔ |q.x| > q.w ∨ |q.y| > q.w ∨ |q.z| > q.w := by
    rw [hO, hq]
    simp only [Frustum.HasPlane, or_and_right, exists_or, exists_eq_left, a2, b2, c2, d2, e2, g2, gt_iff_lt, lt_abs]
    constructor
    · rintro (x | x | x | x | x | x)
      · left; right; linarith
      · left; left; linarith
      · right; left; right; linarith
      · right; left; left; linarith
      · right; right; right; linarith
      · right; right; left; linarith
    · rintro ((x | x) | (x | x) | x | x)
      · right; left; linarith
      · left; linarith
      · right; right; right; left; linarith
      · right; right; left; linarith
      · right; right; right; right; right; linarith
      · right; right; right; right; left; linarith
  have hrel : p.relateClipSpace m = f.contains p.relatePlane := by
    unfold V3.relateClipSpace
    dsimp only
    split
    · rename_i h; exact (hin.2 h).symm
    · rename_i h
      split
      · rename_i h'; exact (hout.2 h').symm
      · rename_i h'
        cases hc : f.contains p.relatePlane with
        | In => exact absurd (hin.1 hc) h
        | Out => exact absurd (hout.1 hc) h'
        | Cross => rfl
  refine ⟨hin, hout, hrel, ?_, ?_⟩
  · rw [hrel]; unfold relateClipSpace; rw [hf]; rfl
  · intro P hP
    rcases hP with rfl | rfl | rfl | rfl | rfl | rfl
    · exact ((c38_normalize _).2 _ h1).1
    · exact ((c38_normalize _).2 _ h2).1
    · exact ((c38_normalize _).2 _ h3).1
    · exact ((c38_normalize _).2 _ h4).1
    · exact ((c38_normalize _).2 _ h5).1
    · exact ((c38_normalize _).2 _ h6).1

/-- Extraction succeeds exactly if no plane normal vanishes. -/
theorem c42_none (m : M4 ℝ) : Frustum.fromMatrix4 m = none ↔
    ∃ r ∈ [m.r0, m.r1, m.r2], (m.r3.x = -r.x ∧ m.r3.y = -r.y ∧ m.r3.z = -r.z) ∨ (m.r3.x = r.x ∧ m.r3.y = r.y ∧ m.r3.z = r.z) := by
  have key : ∀ v : V4 ℝ, (∃ P, (Plane.fromVector4Alt v).normalize = some P) ↔ ¬ (v.x = 0 ∧ v.y = 0 ∧ v.z = 0) := by
    intro v
    rw [← Option.ne_none_iff_exists', ne_eq, (c38_normalize _).1, not_iff_not, V3.ext_iff]
    rfl
  rw [← not_iff_not, ← ne_eq, Option.ne_none_iff_exists']
  have : (∃ f, Frustum.fromMatrix4 m = some f) ↔ (∃ P, (Plane.fromVector4Alt (m.r3.add m.r0)).normalize = some P) ∧
      (∃ P, (Plane.fromVector4Alt (m.r3.sub m.r0)).normalize = some P) ∧
      (∃ P, (Plane.fromVector4Alt (m.r3.add m.r1)).normalize = some P) ∧
      (∃ P, (Plane.fromVector4Alt (m.r3.sub m.r1)).normalize = some P) ∧
      (∃ P, (Plane.fromVector4Alt (m.r3.add m.r2)).normalize = some P) ∧
      (∃ P, (Plane.fromVector4Alt (m.r3.sub m.r2)).normalize = some P) := by
    constructor
    · rintro ⟨f, hf⟩
      obtain ⟨h1, h2, h3, h4, h5, h6⟩ := fromMatrix4_some m f hf
      exact ⟨⟨_, h1⟩, ⟨_, h2⟩, ⟨_, h3⟩, ⟨_, h4⟩, ⟨_, h5⟩, ⟨_, h6⟩⟩
    · rintro ⟨⟨a, ha⟩, ⟨b, hb⟩, ⟨c, hc⟩, ⟨d, hd⟩, ⟨e, he⟩, ⟨g, hg⟩⟩
      exact ⟨⟨a, b, c, d, e, g⟩, by simp [Frustum.fromMatrix4, ha, hb, hc, hd, he, hg]⟩
  rw [this]
  simp only [key, V4.add, V4.sub, List.mem_cons, List.not_mem_nil, or_false, exists_eq_or_imp, exists_eq_left, not_or,
    add_eq_zero_iff_eq_neg, sub_eq_zero]
  tauto

/-- The identity matrix yields a frustum (the clip cube). -/
example : ∃ f, Frustum.fromMatrix4 ⟨⟨1, 0, 0, 0⟩, ⟨0, 1, 0, 0⟩, ⟨0, 0, 1, 0⟩, ⟨0, 0, 0, 1⟩⟩ = some f := by
  rw [← Option.ne_none_iff_exists', ne_eq, c42_none]
  simp

/-! ## C43 -/

/-- What `Ortho::to_frustum` actually accepts: `left < x < -right`, `bottom < y < -top`, `far < z < -near` (missing: the
orthographic box `left < x < right`, `bottom < y < top`, `-far < z < -near`, for which it is false, see `c43_false`). -/
theorem c43_ortho_partial (o : Ortho K) (p : V3 K) : o.toFrustum.contains p.relatePlane = .In ↔
    (o.left < p.x ∧ p.x < -o.right) ∧ (o.bottom < p.y ∧ p.y < -o.top) ∧ (o.far < p.z ∧ p.z < -o.near) := by
  rw [(c41_frustum_point _ _).2]
  simp only [Frustum.HasPlane, forall_eq_or_imp, forall_eq, Plane.Inside, Ortho.toFrustum, Plane.fromAbcd]
  simp
  constructor
  · rintro ⟨x1, x2, x3, x4, x5, x6⟩
    refine ⟨⟨x1, ?_⟩, ⟨x3, ?_⟩, x6, ?_⟩ <;> linarith
  · rintro ⟨⟨x1, x2⟩, ⟨x3, x4⟩, x5, x6⟩
    refine ⟨x1, ?_, x3, ?_, ?_, x5⟩ <;> linarith

/-- C43 as stated is false: for every orthographic projection with `right ≥ -left` (such as every centred one) no point at all is `In`. -/
theorem c43_false : (∀ (o : Ortho K) (p : V3 K), -o.left ≤ o.right → o.toFrustum.contains p.relatePlane ≠ .In) ∧
    ∃ (o : Ortho ℚ) (p : V3 ℚ), (o.left < p.x ∧ p.x < o.right) ∧ (o.bottom < p.y ∧ p.y < o.top) ∧ (-o.far < p.z ∧ p.z < -o.near) ∧
      o.toFrustum.contains p.relatePlane = .Out := by
  refine ⟨?_, ⟨-1, 1, -1, 1, 1, 10⟩, ⟨0, 0, -5⟩, ⟨by norm_num, by norm_num⟩, ⟨by norm_num, by norm_num⟩, ⟨by norm_num, by norm_num⟩, by decide +kernel⟩
  intro o p h hin
  rw [c43_ortho_partial] at hin
  linarith [hin.1.1, hin.1.2]

end Verif.Geom
