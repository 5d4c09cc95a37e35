import Verif.Scene.Pipeline
import Verif.Minkowski.Gjk2Thin
/-!
# A pair of a scene that is lost (C90)

A circle and the corner of a triangle that reaches into it by very little: the broad phase reports the pair, the 100 iterations of GJK end without a decision, and the pair is dropped. So the
condition `Clear` in the theorems of `Scene/Pipeline` cannot be left out.
-/
namespace Verif.Scene
open Verif Geom Primitive Minkowski BroadPhase Dbvt
set_option linter.unusedSectionVars false
noncomputable section

/-- Shapes that still meet after every small move have no line between them. -/
theorem deep_not_separated {L R : V2 ℝ → Prop} {r : ℝ} (hr : 0 < r) (h : Deep2 L R r) : ¬ Separated2 L R := by
  rintro ⟨d, hd, hs⟩
  have hn : 0 < d.norm := V2.norm_pos hd
  obtain ⟨x, y, hx, hy, e⟩ := h (d * (r / d.norm)) (by
    rw [V2.norm_smul, abs_of_pos (div_pos hr hn)]
    exact le_of_eq (by field_simp))
  have h1 := hs x y hx hy
  have h2 : (x - y).dot d = x.dot d - y.dot d := by simp only [V2.dot, V2.sub_x, V2.sub_y]; ring
  rw [e] at h2
  have h3 : (d * (r / d.norm)).dot d = r / d.norm * d.dot d := by simp only [V2.dot, V2.mul_x, V2.mul_y]; ring
  rw [h3] at h2
  have h4 : 0 < r / d.norm * d.dot d := mul_pos (div_pos hr hn) (dot_self_pos2 hd)
  linarith

/-- The circle and the triangle. -/
def thinScene : List Item2 := [(Prim2.circle ⟨1⟩, at2 ⟨0, 0⟩), (Prim2.polygon (spike 100), at2 ⟨1, 0⟩)]

/-- C90 is false as it stands: with either strategy there is a scene of two items, sizes and placements as the library makes them, that overlap (they share a point however one of them is moved by
at most some `r > 0`); the broad phase reports the pair, and the narrow phase drops it. -/
theorem c90_thin_false (tolerance : ℝ) (m : Nat) (strategy : Strategy) :
    (∀ a ∈ thinScene, a.Ok) ∧ (∃ a b, thinScene = [a, b] ∧ (∃ r, 0 < r ∧ Deep2 a.At b.At r) ∧ ¬ Separated2 a.At b.At) ∧
      bruteForce worldBox2 Aabb2.intersects thinScene = .ok [(0, 1)] ∧ confirm (narrow2 tolerance m strategy) thinScene [(0, 1)] = .ok [] := by
  obtain ⟨k1, k2, ⟨r, hr, hd⟩, -, k3⟩ := c91_no_limit 100
  have o1 : Item2.Ok (Prim2.circle ⟨1⟩, at2 ⟨0, 0⟩) := ⟨k1, by simp [at2, M2.Orthogonal, V2.dot], by simp [at2]⟩
  have o2 : Item2.Ok (Prim2.polygon (spike 100), at2 ⟨1, 0⟩) := ⟨k2, by simp [at2, M2.Orthogonal, V2.dot], by simp [at2]⟩
  have hns := deep_not_separated hr hd
  refine ⟨?_, ⟨_, _, rfl, ⟨r, hr, hd⟩, hns⟩, ?_, ?_⟩
  · intro a ha
    simp only [thinScene, List.mem_cons, List.not_mem_nil, or_false] at ha
    rcases ha with rfl | rfl
    · exact o1
    · exact o2
  · obtain ⟨l, h1, h2, h3⟩ := c19_brute_force worldBox2 Aabb2.intersects thinScene
    rw [h1]
    congr 1
    have hm : (0, 1) ∈ l := (h3 0 1).2 ⟨by decide, _, _, rfl, rfl, by
      by_contra h
      exact hns (separated_of_boxes o1.1 o2.1 (by simpa using h))⟩
    have hall : ∀ p ∈ l, p = (0, 1) := by
      rintro ⟨i, j⟩ hij
      obtain ⟨q1, a, b, qa, qb, -⟩ := (h3 i j).1 hij
      have := (List.getElem?_eq_some_iff.1 qb).1
      have hlen : thinScene.length = 2 := rfl
      have : i = 0 ∧ j = 1 := by omega
      rw [this.1, this.2]
    have hnd := h2.nodup
    match l, hm, hall, hnd with
    | [p], _, hall, _ => rw [hall p (by simp)]
    | p :: q :: l, _, hall, hnd =>
      exfalso
      have e1 := hall p (by simp)
      have e2 := hall q (by simp)
      rw [e1, e2] at hnd
      simp at hnd
  · have hn : narrow2 tolerance m strategy (Prim2.circle ⟨1⟩, at2 ⟨0, 0⟩) (Prim2.polygon (spike 100), at2 ⟨1, 0⟩) = .ok false := by
      unfold narrow2 gjkIntersection
      dsimp only
      rw [k3]
      rfl
    unfold confirm thinScene
    rw [retainRes_ok _ (fun _ => false) _ (by
      intro p hp
      simp only [List.mem_cons, List.not_mem_nil, or_false] at hp
      subst hp
      exact hn)]
    rfl

end
end Verif.Scene
