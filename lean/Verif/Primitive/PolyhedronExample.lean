import Verif.Primitive.Polyhedron
/-!
# A concrete polyhedron that satisfies the hypotheses of C62 and C63
-/
namespace Verif.Primitive
open Verif Verif.Geom
set_option linter.unusedSectionVars false

/-- vertices of a tetrahedron -/
def tetraVerts : List (V3 ℝ) := [⟨1, 0, 0⟩, ⟨0, 1, 0⟩, ⟨0, 0, 1⟩, ⟨0, 0, 0⟩]
/-- its faces, counter-clockwise from outside -/
def tetraFaces : List Tri := [(1, 3, 2), (3, 1, 0), (2, 0, 1), (0, 2, 3)]

/-- the four corners of each face -/
theorem tetra_cases (P : V3 ℝ → V3 ℝ → V3 ℝ → Prop) (h1 : P ⟨0, 1, 0⟩ ⟨0, 0, 0⟩ ⟨0, 0, 1⟩) (h2 : P ⟨0, 0, 0⟩ ⟨0, 1, 0⟩ ⟨1, 0, 0⟩)
    (h3 : P ⟨0, 0, 1⟩ ⟨1, 0, 0⟩ ⟨0, 1, 0⟩) (h4 : P ⟨1, 0, 0⟩ ⟨0, 0, 1⟩ ⟨0, 0, 0⟩) :
    ∀ f ∈ tetraFaces, ∀ a b c, tetraVerts[f.1]? = some a → tetraVerts[f.2.1]? = some b → tetraVerts[f.2.2]? = some c → P a b c := by
  intro f hf a b c ha hb hc
  simp only [tetraFaces, List.mem_cons, List.not_mem_nil, or_false] at hf
  rcases hf with rfl | rfl | rfl | rfl
  all_goals
    simp only [tetraVerts, List.getElem?_cons_zero, List.getElem?_cons_succ, Option.some.injEq] at ha hb hc
    subst ha hb hc
    assumption

theorem tetra_mem {p : V3 ℝ} (hp : p ∈ tetraVerts) : p = ⟨1, 0, 0⟩ ∨ p = ⟨0, 1, 0⟩ ∨ p = ⟨0, 0, 1⟩ ∨ p = ⟨0, 0, 0⟩ := by
  simpa only [tetraVerts, List.mem_cons, List.not_mem_nil, or_false] using hp

theorem tetra_corner {p q : V3 ℝ} (hp : p ∈ tetraVerts) (hq : q ∈ tetraVerts) (hne : q ≠ p) : q.dot (p * (2 : ℝ) - ⟨1, 1, 1⟩) < p.dot (p * (2 : ℝ) - ⟨1, 1, 1⟩) := by
  rcases tetra_mem hp with rfl | rfl | rfl | rfl <;> rcases tetra_mem hq with rfl | rfl | rfl | rfl <;>
    first | exact absurd rfl hne | norm_num [V3.dot]

theorem tetra_inj : tetraVerts.Nodup := by
  simp [tetraVerts]

theorem tetra_convex : ConvexSolid tetraVerts tetraFaces where
  tri := by simp [tetraFaces, tetraVerts, TriOk]
  oriented := by unfold Oriented; decide
  closed := by
    have : ∀ e ∈ tetraFaces.flatMap triEdges, (e.2, e.1) ∈ tetraFaces.flatMap triEdges := by decide
    exact fun a b h => this _ h
  nonempty := by simp [tetraVerts]
  used := by
    have : ∀ v < 4, ∃ f ∈ tetraFaces, v = f.1 ∨ v = f.2.1 ∨ v = f.2.2 := by decide
    exact this
  behind := by
    refine tetra_cases _ ?_ ?_ ?_ ?_ <;> intro p hp <;> rcases tetra_mem hp with rfl | rfl | rfl | rfl <;> norm_num [vol, V3.dot, V3.cross]
  inner := by
    refine ⟨⟨1/4, 1/4, 1/4⟩, ?_⟩
    refine tetra_cases _ ?_ ?_ ?_ ?_ <;> norm_num [vol, V3.dot, V3.cross]
  corner := by
    intro v p hp
    refine ⟨p * (2 : ℝ) - ⟨1, 1, 1⟩, fun w q hw hq => tetra_corner (List.mem_of_getElem? hp) (List.mem_of_getElem? hq) fun e => hw ?_⟩
    subst e
    exact (List.getElem?_inj (List.getElem?_eq_some_iff.1 hq).1 tetra_inj).1 (hq.trans hp.symm)

end Verif.Primitive
