import Verif.Minkowski.Similar
import Verif.Minkowski.Balls
/-!
# A turned scene of two shapes with the same origin (C96, negation)

When the placements put the origin at the same point the search starts in the fixed direction (1, 1). Two unit circles with the same centre look the same after every turn, so the answer is the same
contact, with the same normal: the normal does not turn with the scene.
-/
namespace Verif.Minkowski
open Verif Geom Primitive
set_option linter.unusedSectionVars false
noncomputable section
open Classical

/-- A turn about the origin leaves the support function of a circle at the origin as it is. -/
theorem circle_turn (σ : Sim2) (hk : σ.k = 1) (ht : σ.t = 0) (r : ℝ) :
    (Prim2.circle ⟨r⟩).supportPoint (σ.placed (shift2 0 0)).tr = (Prim2.circle ⟨r⟩).supportPoint (shift2 0 0).tr := by
  have hf : σ.Follows _ _ := prim2_follows (Prim2.circle ⟨r⟩) (shift2 0 0)
  have hat : ∀ v, σ.at v = σ.turn v := by
    intro v
    unfold Sim2.at Sim2.lin
    rw [hk, ht]
    ext <;> simp
  have hD := circle_disc ⟨r⟩ (shift2 0 0) (shift2_orthogonal 0 0) (by simp [shift2])
  obtain ⟨-, o1, o2⟩ := placed_ok σ (shift2 0 0) (shift2_orthogonal 0 0) (by simp [shift2])
  have hD' := circle_disc ⟨r⟩ (σ.placed (shift2 0 0)) o1 o2
  funext d
  by_cases hd : d = 0
  · subst hd
    have h := hf 0 1 one_pos
    rw [show σ.turn 0 * (1 : ℝ) = 0 from by rw [σ.turn_zero]; ext <;> simp] at h
    rw [h]
    show Res.mapOk σ.at ((⟨r⟩ : Circle).supportPoint (shift2 0 0).tr 0) = (⟨r⟩ : Circle).supportPoint (shift2 0 0).tr 0
    have hz : (⟨r⟩ : Circle).supportPoint (shift2 0 0).tr 0 = nanPoint := by
      have : (shift2 0 0).tr.invVector 0 = some 0 := by simp [shift2, Dec2.tr, M2.apply, M2.transpose, V2.ext_iff]
      unfold Circle.supportPoint supportRound
      rw [this]
      show (if (0 : V2 ℝ) = 0 then nanPoint else _) = _
      rw [if_pos rfl]
    rw [hz]
    rfl
  · refine (hD' d hd).trans ((hD d hd).trans ?_).symm
    congr 1
    have e1 : (σ.placed (shift2 0 0)).disp = (shift2 0 0).disp := by
      show σ.at _ = _
      rw [hat]
      ext <;> simp [shift2, Sim2.turn]
    have e2 : (σ.placed (shift2 0 0)).scale = (shift2 0 0).scale := by
      show _ * σ.k = _
      rw [hk, mul_one]
    rw [e1, e2]

/-- **C96 is false for two shapes with the same origin.** Two unit circles at the origin, and the scene turned by any angle that is not zero: both scenes give a contact, and the normal of the second
is not the turned normal of the first. -/
theorem c96_centred_false (σ : Sim2) (hk : σ.k = 1) (ht : σ.t = 0) (hturn : ¬ (σ.a = 1 ∧ σ.b = 0)) {tolerance : ℝ} (htol : 0 < tolerance) (n m : Nat) :
    ∃ c c', gjkIntersection reduce2 (n + 2) (epa2 tolerance m ((Prim2.circle ⟨1⟩).supportPoint (shift2 0 0).tr) ((Prim2.circle ⟨1⟩).supportPoint (shift2 0 0).tr)) .fullResolution
        ((Prim2.circle ⟨1⟩).supportPoint (shift2 0 0).tr) ((Prim2.circle ⟨1⟩).supportPoint (shift2 0 0).tr) ((shift2 0 0).tr.point 0) ((shift2 0 0).tr.point 0) = .ok (some c) ∧
      gjkIntersection reduce2 (n + 2) (epa2 (tolerance * σ.k) m ((Prim2.circle ⟨1⟩).supportPoint (σ.placed (shift2 0 0)).tr) ((Prim2.circle ⟨1⟩).supportPoint (σ.placed (shift2 0 0)).tr)) .fullResolution
        ((Prim2.circle ⟨1⟩).supportPoint (σ.placed (shift2 0 0)).tr) ((Prim2.circle ⟨1⟩).supportPoint (σ.placed (shift2 0 0)).tr) ((σ.placed (shift2 0 0)).tr.point 0)
        ((σ.placed (shift2 0 0)).tr.point 0) = .ok (some c') ∧ c'.normal ≠ σ.turn c.normal := by
  have ok : (Prim2.circle ⟨1⟩).Ok := zero_le_one
  have o := shift2_orthogonal 0 0
  have os : (shift2 0 0).scale ≠ 0 := by simp [shift2]
  obtain ⟨x, f, h1, h2, h3⟩ := c86_prim2 (.circle ⟨1⟩) (.circle ⟨1⟩) ok ok (shift2 0 0) (shift2 0 0) o o os os htol (n + 2) m
  obtain ⟨g, g1, g2⟩ := c87_circles ⟨1⟩ ⟨1⟩ (shift2 0 0) (shift2 0 0) o o os os n
  have hg : g.isSome := by
    refine g2.2 ?_
    have e : (shift2 0 0).disp - (shift2 0 0).disp = 0 := by ext <;> simp
    rw [e]
    have : (0 : V2 ℝ).norm = 0 := by simp [V2.norm, V2.dot]
    rw [this]
    norm_num [shift2]
  have hx : x.isSome := by
    have e : gjkIntersect reduce2 (n + 2) ((Prim2.circle ⟨1⟩).supportPoint (shift2 0 0).tr) ((Prim2.circle ⟨1⟩).supportPoint (shift2 0 0).tr) ((shift2 0 0).tr.point 0) ((shift2 0 0).tr.point 0) = .ok g := g1
    unfold gjkIntersection at h1
    rw [e, Res.bind_ok] at h1
    cases g with
    | none => cases hg
    | some y => cases h1; rfl
  obtain ⟨c, rfl⟩ := Option.isSome_iff_exists.1 (h3.2 hx)
  refine ⟨c, c, h2, ?_, ?_⟩
  · have e : (σ.placed (shift2 0 0)).tr.point 0 = (shift2 0 0).tr.point 0 := by
      rw [placed_point, show (shift2 0 0).tr.point 0 = 0 from by ext <;> simp [shift2, Dec2.tr, M2.apply]]
      unfold Sim2.at
      rw [ht, σ.lin_zero]
      ext <;> simp
    rw [circle_turn σ hk ht, e, hk, mul_one]
    exact h2
  · intro e
    obtain ⟨hn, -⟩ := c55_pipeline_2d _ _ (image_convex2 _ (prim2_convex _)) (prim2_support (.circle ⟨1⟩) ok _ o os) (prim2_support (.circle ⟨1⟩) ok _ o os) _ _ _ _ _ h2
    have e1 := congrArg V2.x e
    have e2 := congrArg V2.y e
    simp only [Sim2.turn] at e1 e2
    have hne : c.normal ≠ 0 := by
      intro h
      rw [h] at hn
      simp [V2.norm, V2.dot] at hn
    have hp := dot_self_pos2 hne
    simp only [V2.dot] at hp
    have key : ((σ.a - 1) ^ 2 + σ.b ^ 2) * (c.normal.x * c.normal.x + c.normal.y * c.normal.y) = 0 := by
      have k1 : (σ.a - 1) * c.normal.x - σ.b * c.normal.y = 0 := by linarith
      have k2 : σ.b * c.normal.x + (σ.a - 1) * c.normal.y = 0 := by linarith
      calc _ = ((σ.a - 1) * c.normal.x - σ.b * c.normal.y) ^ 2 + (σ.b * c.normal.x + (σ.a - 1) * c.normal.y) ^ 2 := by ring
        _ = 0 := by rw [k1, k2]; ring
    rcases mul_eq_zero.1 key with h | h
    · have p1 := sq_nonneg (σ.a - 1)
      have p2 := sq_nonneg σ.b
      exact hturn ⟨by have : (σ.a - 1) ^ 2 = 0 := by linarith
                      have := pow_eq_zero_iff (two_ne_zero) |>.1 this
                      linarith, by have : σ.b ^ 2 = 0 := by linarith
                                   exact pow_eq_zero_iff (two_ne_zero) |>.1 this⟩
    · linarith

/-- Such a turn: a quarter turn. -/
example : ∃ σ : Sim2, σ.k = 1 ∧ σ.t = 0 ∧ ¬ (σ.a = 1 ∧ σ.b = 0) := ⟨⟨0, 1, 1, 0, by norm_num, one_pos⟩, rfl, rfl, by norm_num⟩

end
end Verif.Minkowski
