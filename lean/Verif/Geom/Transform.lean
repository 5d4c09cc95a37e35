import Verif.Geom.RealVec
import Verif.Geom.RayBox
import Mathlib.Tactic.LinearCombination
/-!
# Transforms (`cgmath::Transform`, `cgmath::Decomposed`)

Code generic in `T: Transform<P>` is modelled over the record `Tr`, without laws; the laws that hold for `Decomposed` are stated as
predicates (`Invertible2/3`, `Similar2/3`) and proved for the model of `Decomposed` (`Dec2`, `Dec3`) with an orthogonal rotation.
cgmath is not part of the repository; the formulas are those of cgmath 0.17 `src/transform.rs`.
-/
namespace Verif.Geom
set_option linter.unusedSectionVars false

/-- `cgmath::Transform<P>`: `transform_point`, `transform_vector`, `inverse_transform_vector` and the point and vector action of
`inverse_transform()` (`None` if not invertible). -/
structure Tr (P : Type) where
  point : P → P
  vector : P → P
  invVector : P → Option P
  inv : Option ((P → P) × (P → P))

variable {K : Type} [Field K] [LinearOrder K]

/-- `Ray2::transform`, `src/ray.rs:46-54` -/
def Ray2.transform (r : Ray2 K) (point vector : V2 K → V2 K) : Ray2 K := ⟨point r.origin, vector r.direction⟩
/-- `Ray3::transform`, `src/ray.rs:46-54` -/
def Ray3.transform (r : Ray3 K) (point vector : V3 K → V3 K) : Ray3 K := ⟨point r.origin, vector r.direction⟩

/-- Laws of an invertible affine transform whose inverse acts as `ip` on points and `iv` on vectors. -/
structure Invertible2 (T : Tr (V2 K)) (ip iv : V2 K → V2 K) : Prop where
  inv_eq : T.inv = some (ip, iv)
  left : ∀ p, ip (T.point p) = p
  right : ∀ p, T.point (ip p) = p
  affine : ∀ p v (t : K), T.point (p + v * t) = T.point p + T.vector v * t
  iaffine : ∀ p v (t : K), ip (p + v * t) = ip p + iv v * t

/-- Laws of an invertible affine transform whose inverse acts as `ip` on points and `iv` on vectors. -/
structure Invertible3 (T : Tr (V3 K)) (ip iv : V3 K → V3 K) : Prop where
  inv_eq : T.inv = some (ip, iv)
  left : ∀ p, ip (T.point p) = p
  right : ∀ p, T.point (ip p) = p
  affine : ∀ p v (t : K), T.point (p + v * t) = T.point p + T.vector v * t
  iaffine : ∀ p v (t : K), ip (p + v * t) = ip p + iv v * t

/-- Similarity: the direction `e` that `inverse_transform_vector` gives for `d` orders local points as `d` orders their images. -/
def Similar2 (T : Tr (V2 K)) : Prop :=
  ∃ c : K, 0 < c ∧ ∀ d, ∃ e, T.invVector d = some e ∧ ∀ p q, (T.point p - T.point q).dot d = c * (p - q).dot e
/-- Similarity (3D) -/
def Similar3 (T : Tr (V3 K)) : Prop :=
  ∃ c : K, 0 < c ∧ ∀ d, ∃ e, T.invVector d = some e ∧ ∀ p q, (T.point p - T.point q).dot d = c * (p - q).dot e

/-! ## `Decomposed` -/

/-- A 2D rotation (`Basis2`): a matrix by columns. -/
structure M2 (K : Type) where
  c0 : V2 K
  c1 : V2 K
/-- `Rotation::rotate_vector` / `rotate_point` -/
def M2.apply (m : M2 K) (v : V2 K) : V2 K := m.c0 * v.x + m.c1 * v.y
/-- `Rotation::invert` (transpose) -/
def M2.transpose (m : M2 K) : M2 K := ⟨⟨m.c0.x, m.c1.x⟩, ⟨m.c0.y, m.c1.y⟩⟩
/-- Orthogonal: columns are orthonormal. -/
def M2.Orthogonal (m : M2 K) : Prop := m.c0.dot m.c0 = 1 ∧ m.c1.dot m.c1 = 1 ∧ m.c0.dot m.c1 = 0

/-- A 3D rotation (`Basis3`, or the matrix of a unit quaternion): a matrix by columns. -/
structure M3 (K : Type) where
  c0 : V3 K
  c1 : V3 K
  c2 : V3 K
/-- `rotate_vector` / `rotate_point` -/
def M3.apply (m : M3 K) (v : V3 K) : V3 K := m.c0 * v.x + m.c1 * v.y + m.c2 * v.z
/-- `invert` (transpose) -/
def M3.transpose (m : M3 K) : M3 K := ⟨⟨m.c0.x, m.c1.x, m.c2.x⟩, ⟨m.c0.y, m.c1.y, m.c2.y⟩, ⟨m.c0.z, m.c1.z, m.c2.z⟩⟩
/-- Orthogonal: the transpose is the inverse (both ways). -/
def M3.Orthogonal (m : M3 K) : Prop :=
  (m.c0.dot m.c0 = 1 ∧ m.c1.dot m.c1 = 1 ∧ m.c2.dot m.c2 = 1 ∧ m.c0.dot m.c1 = 0 ∧ m.c0.dot m.c2 = 0 ∧ m.c1.dot m.c2 = 0) ∧
  ∀ v, m.apply (m.transpose.apply v) = v

/-- `cgmath::Decomposed<Vector2, R>` -/
structure Dec2 (K : Type) where
  scale : K
  rot : M2 K
  disp : V2 K
/-- `cgmath::Decomposed<Vector3, R>` -/
structure Dec3 (K : Type) where
  scale : K
  rot : M3 K
  disp : V3 K

/-- `Transform for Decomposed` (2D) -/
def Dec2.tr (D : Dec2 K) : Tr (V2 K) where
  point p := D.rot.apply (p * D.scale) + D.disp
  vector v := D.rot.apply (v * D.scale)
  invVector v := if D.scale = 0 then none else some (D.rot.transpose.apply (v / D.scale))
  inv := if D.scale = 0 then none else
    let s := 1 / D.scale
    let r := D.rot.transpose
    let d := r.apply D.disp * (-s)
    some (fun p => r.apply (p * s) + d, fun v => r.apply (v * s))
/-- `Transform for Decomposed` (3D) -/
def Dec3.tr (D : Dec3 K) : Tr (V3 K) where
  point p := D.rot.apply (p * D.scale) + D.disp
  vector v := D.rot.apply (v * D.scale)
  invVector v := if D.scale = 0 then none else some (D.rot.transpose.apply (v / D.scale))
  inv := if D.scale = 0 then none else
    let s := 1 / D.scale
    let r := D.rot.transpose
    let d := r.apply D.disp * (-s)
    some (fun p => r.apply (p * s) + d, fun v => r.apply (v * s))

variable [IsStrictOrderedRing K]

theorem M2.left_inv {m : M2 K} (h : m.Orthogonal) (v : V2 K) : m.transpose.apply (m.apply v) = v := by
  obtain ⟨h0, h1, h2⟩ := h
  simp only [V2.dot] at h0 h1 h2
  ext <;> simp [M2.apply, M2.transpose]
  · linear_combination v.x * h0 + v.y * h2
  · linear_combination v.x * h2 + v.y * h1

theorem M2.right_inv {m : M2 K} (h : m.Orthogonal) (v : V2 K) : m.apply (m.transpose.apply v) = v := by
  obtain ⟨h0, h1, h2⟩ := h
  simp only [V2.dot] at h0 h1 h2
  obtain ⟨⟨a, b⟩, ⟨c, d⟩⟩ := m
  simp only at h0 h1 h2
  -- the determinant squares to one, and the cofactors are the entries
  have hdet : (a * d - b * c) * (a * d - b * c) = 1 := by linear_combination (c * c + d * d) * h0 + h1 - (a * c + b * d) * h2
  have e1 : a * a + c * c = 1 := by grind
  have e2 : b * b + d * d = 1 := by grind
  have e3 : a * b + c * d = 0 := by grind
  ext <;> simp [M2.apply, M2.transpose]
  · linear_combination v.x * e1 + v.y * e3
  · linear_combination v.x * e3 + v.y * e2

theorem M3.left_inv {m : M3 K} (h : m.Orthogonal) (v : V3 K) : m.transpose.apply (m.apply v) = v := by
  obtain ⟨⟨h0, h1, h2, h3, h4, h5⟩, -⟩ := h
  simp only [V3.dot] at h0 h1 h2 h3 h4 h5
  ext <;> simp [M3.apply, M3.transpose]
  · linear_combination v.x * h0 + v.y * h3 + v.z * h4
  · linear_combination v.x * h3 + v.y * h1 + v.z * h5
  · linear_combination v.x * h4 + v.y * h5 + v.z * h2

theorem Dec2.invertible (D : Dec2 K) (hr : D.rot.Orthogonal) (hs : D.scale ≠ 0) : ∃ ip iv, Invertible2 D.tr ip iv := by
  refine ⟨fun p => D.rot.transpose.apply (p * (1 / D.scale)) + D.rot.transpose.apply D.disp * (-(1 / D.scale)),
    fun v => D.rot.transpose.apply (v * (1 / D.scale)), ?_, ?_, ?_, ?_, ?_⟩
  · simp only [Dec2.tr, if_neg hs]
  · intro p
    have h1 := M2.left_inv hr (p * D.scale)
    simp only [Dec2.tr]
    have : ∀ a b : V2 K, D.rot.transpose.apply ((a + b) * (1 / D.scale)) + D.rot.transpose.apply b * (-(1 / D.scale)) =
        D.rot.transpose.apply a * (1 / D.scale) := by
      intro a b; ext <;> simp [M2.apply] <;> ring
    rw [this, h1]
    ext <;> simp [hs]
  · intro p
    simp only [Dec2.tr]
    have e : (D.rot.transpose.apply (p * (1 / D.scale)) + D.rot.transpose.apply D.disp * (-(1 / D.scale))) * D.scale =
        D.rot.transpose.apply (p - D.disp) := by
      ext <;> simp [M2.apply] <;> field_simp <;> ring
    rw [e, M2.right_inv hr]
    ext <;> simp
  · intro p v t
    ext <;> simp [Dec2.tr, M2.apply] <;> ring
  · intro p v t
    ext <;> simp [M2.apply] <;> ring

theorem Dec3.invertible (D : Dec3 K) (hr : D.rot.Orthogonal) (hs : D.scale ≠ 0) : ∃ ip iv, Invertible3 D.tr ip iv := by
  refine ⟨fun p => D.rot.transpose.apply (p * (1 / D.scale)) + D.rot.transpose.apply D.disp * (-(1 / D.scale)),
    fun v => D.rot.transpose.apply (v * (1 / D.scale)), ?_, ?_, ?_, ?_, ?_⟩
  · simp only [Dec3.tr, if_neg hs]
  · intro p
    have h1 := M3.left_inv hr (p * D.scale)
    simp only [Dec3.tr]
    have : ∀ a b : V3 K, D.rot.transpose.apply ((a + b) * (1 / D.scale)) + D.rot.transpose.apply b * (-(1 / D.scale)) =
        D.rot.transpose.apply a * (1 / D.scale) := by
      intro a b; ext <;> simp [M3.apply] <;> ring
    rw [this, h1]
    ext <;> simp [hs]
  · intro p
    simp only [Dec3.tr]
    have e : (D.rot.transpose.apply (p * (1 / D.scale)) + D.rot.transpose.apply D.disp * (-(1 / D.scale))) * D.scale =
        D.rot.transpose.apply (p - D.disp) := by
      ext <;> simp [M3.apply] <;> field_simp <;> ring
    rw [e, hr.2]
    ext <;> simp
  · intro p v t
    ext <;> simp [Dec3.tr, M3.apply] <;> ring
  · intro p v t
    ext <;> simp [M3.apply] <;> ring

theorem Dec2.similar (D : Dec2 K) (hs : D.scale ≠ 0) : Similar2 D.tr := by
  refine ⟨D.scale * D.scale, mul_self_pos.2 hs, fun d => ⟨_, by simp only [Dec2.tr, if_neg hs]; rfl, fun p q => ?_⟩⟩
  simp [Dec2.tr, V2.dot, M2.apply, M2.transpose]
  field_simp
  ring

theorem Dec3.similar (D : Dec3 K) (hs : D.scale ≠ 0) : Similar3 D.tr := by
  refine ⟨D.scale * D.scale, mul_self_pos.2 hs, fun d => ⟨_, by simp only [Dec3.tr, if_neg hs]; rfl, fun p q => ?_⟩⟩
  simp [Dec3.tr, V3.dot, M3.apply, M3.transpose]
  field_simp
  ring

end Verif.Geom
