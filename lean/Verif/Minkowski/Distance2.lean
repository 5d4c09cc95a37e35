import Verif.Minkowski.Distance
/-!
# Distance in 2D does not panic (C84)
-/
namespace Verif.Minkowski
open Verif Geom Primitive
set_option linter.unusedSectionVars false
noncomputable section
open Classical

/-- The closest point of a simplex with a point is there, and the simplex left has a point. -/
theorem closest2_total {s : List (SP (V2 ℝ))} (h : s ≠ []) : ∃ c p t, closest2 s = .ok (c, p :: t) := by
  have hne : (reduce2 s 0).2.1 ≠ [] := by
    unfold reduce2
    split
    · dsimp only
      split
      · simp
      · split <;> simp
    · simp
    · exact h
  unfold closest2
  dsimp only
  generalize reduce2 s 0 = r at hne
  obtain ⟨b, t, d⟩ := r
  dsimp only at hne ⊢
  rcases t with _ | ⟨s0, _ | ⟨s1, t⟩⟩
  · exact absurd rfl hne
  · cases b <;> exact ⟨_, _, _, rfl⟩
  · cases b <;> exact ⟨_, _, _, rfl⟩

theorem distanceLoop2_total {tolerance : ℝ} {left right : V2 ℝ → Res (V2 ℝ)} {nan : Res (SP (V2 ℝ))} (hl : ∀ d, d ≠ 0 → ∃ p, left d = .ok p)
    (hr : ∀ d, d ≠ 0 → ∃ p, right d = .ok p) (hn : ∃ p, nan = .ok p) (n : Nat) {s : List (SP (V2 ℝ))} (h : s ≠ []) :
    ∃ r, distanceLoop closest2 tolerance left right nan n s = .ok r := by
  induction n generalizing s with
  | zero => exact ⟨none, rfl⟩
  | succ n ih =>
    obtain ⟨c, p, t, hc⟩ := closest2_total h
    unfold distanceLoop
    rw [hc, Res.bind_ok]
    cases c with
    | none =>
      obtain ⟨q, hq⟩ := hn
      dsimp only
      rw [hq, Res.bind_ok]
      exact hq ▸ ih (by simp)
    | some v =>
      dsimp only
      split
      · exact ⟨none, rfl⟩
      · rename_i hv
        have hv' : -v ≠ 0 := by
          intro e; apply hv
          have hx := congrArg V2.x e
          have hy := congrArg V2.y e
          simp at hx hy
          ext <;> simp [hx, hy]
        have hv'' : - -v ≠ 0 := by
          intro e; apply hv
          have hx := congrArg V2.x e
          have hy := congrArg V2.y e
          simp at hx hy
          ext <;> simp [hx, hy]
        obtain ⟨a, ha⟩ := hl _ hv'
        obtain ⟨b, hb⟩ := hr _ hv''
        simp only [SP.fromMinkowski, ha, hb, Res.bind_ok, Res.pure_eq, List.getElem?_cons_zero, Res.ofOption_some]
        split
        · exact ⟨_, rfl⟩
        · exact ih (by simp)

/-- **C84 in 2D.** For two shapes whose support functions answer, `GJK2::distance` answers: it does not panic, whatever the simplices it meets. -/
theorem c84_2d_partial {tolerance : ℝ} {left right : V2 ℝ → Res (V2 ℝ)} {nan : Res (SP (V2 ℝ))} (hl : ∀ d, d ≠ 0 → ∃ p, left d = .ok p)
    (hr : ∀ d, d ≠ 0 → ∃ p, right d = .ok p) (hn : ∃ p, nan = .ok p) (n : Nat) (leftPos rightPos : V2 ℝ) :
    ∃ r, gjkDistance closest2 tolerance n left right nan leftPos rightPos = .ok r := by
  have h0 := firstDirection_neC2 leftPos rightPos
  unfold gjkDistance
  dsimp only
  generalize (@firstDirection (V2 ℝ) ℝ _ _ (fun a b => propDecidable (a = b)) _ leftPos rightPos) = d at h0
  have h1 : -d ≠ 0 := by
    intro e; apply h0
    have hx := congrArg V2.x e
    have hy := congrArg V2.y e
    simp at hx hy
    ext <;> simp [hx, hy]
  have h2 : - -d ≠ 0 := by
    intro e; apply h0
    have hx := congrArg V2.x e
    have hy := congrArg V2.y e
    simp at hx hy
    ext <;> simp [hx, hy]
  obtain ⟨a, ha⟩ := hl _ h0
  obtain ⟨b, hb⟩ := hr _ h1
  obtain ⟨a', ha'⟩ := hl _ h1
  obtain ⟨b', hb'⟩ := hr _ h2
  simp only [SP.fromMinkowski, ha, hb, ha', hb', Res.bind_ok, Res.pure_eq]
  exact distanceLoop2_total hl hr hn n (by simp)

/-- C84 for two 2D primitives of the library in any placement that turns, scales and moves. -/
theorem c84_prim2_partial (s t : Prim2) (hs : s.Ok) (ht : t.Ok) (D E : Dec2 ℝ) (hD : D.rot.Orthogonal) (hE : E.rot.Orthogonal) (hDs : D.scale ≠ 0)
    (hEs : E.scale ≠ 0) (tolerance : ℝ) (n : Nat) (nan : SP (V2 ℝ)) :
    ∃ r, gjkDistance closest2 tolerance n (s.supportPoint D.tr) (t.supportPoint E.tr) (.ok nan) (D.tr.point 0) (E.tr.point 0) = .ok r :=
  c84_2d_partial (fun d hd => let ⟨p, h, _⟩ := prim2_support s hs D hD hDs d hd; ⟨p, h⟩) (fun d hd => let ⟨p, h, _⟩ := prim2_support t ht E hE hEs d hd; ⟨p, h⟩)
    ⟨nan, rfl⟩ n _ _

/-- Two circles of radius 1, one turned and moved. -/
example (nan : SP (V2 ℝ)) : ∃ r, gjkDistance closest2 (1 / 1000000) 100 ((Prim2.circle ⟨1⟩).supportPoint (at2 0).tr)
    ((Prim2.circle ⟨1⟩).supportPoint (⟨2, ⟨⟨0, 1⟩, ⟨-1, 0⟩⟩, ⟨3, 4⟩⟩ : Dec2 ℝ).tr) (.ok nan) ((at2 0).tr.point 0) ((⟨2, ⟨⟨0, 1⟩, ⟨-1, 0⟩⟩, ⟨3, 4⟩⟩ : Dec2 ℝ).tr.point 0) = .ok r :=
  c84_prim2_partial (.circle ⟨1⟩) (.circle ⟨1⟩) zero_le_one zero_le_one (at2 0) ⟨2, ⟨⟨0, 1⟩, ⟨-1, 0⟩⟩, ⟨3, 4⟩⟩ (by simp [at2, M2.Orthogonal, V2.dot])
    (by simp [M2.Orthogonal, V2.dot]) (by simp [at2]) (by simp) _ _ nan
end
end Verif.Minkowski
