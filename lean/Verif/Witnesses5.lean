import Verif.BroadPhase.NanTree

/-! # Concrete cases, fifth part

Boxes with NaN in 3D (C102). -/

namespace Verif.Witnesses
open Verif Geom BroadPhase Dbvt

/-- `[2, 4] × [0, 1] × [0, 1]` -/
def solidA : Aabb3 ℚ := ⟨⟨2, 0, 0⟩, ⟨4, 1, 1⟩⟩
/-- `[1, 3] × [0, 1] × [0, 1]` -/
def solidB : Aabb3 ℚ := ⟨⟨1, 0, 0⟩, ⟨3, 1, 1⟩⟩
/-- `z` is NaN -/
def solidN : Aabb3 (Fl ℚ) := ⟨⟨some 0, some 0, none⟩, ⟨some 5, some 1, none⟩⟩

/-- C102, sweep and prune in 3D along `x`: a shape with NaN in `z` between two that meet; it sorts to the front, and the pair is found at its new place. -/
example : Sorts (insertionSort (A := Aabb3 (Fl ℚ))) ∧
    (∀ a ∈ [num3 solidA, solidN, num3 solidB], ∃ x y : ℚ, sapN3.minE a 0 = some x ∧ sapN3.maxE a 0 = some y) ∧
    sweepN insertionSort sapN3 (⟨(), fun _ => (), fun _ _ => (), fun _ _ => 0⟩ : VarOps Unit (Aabb3 (Fl ℚ))) id ⟨0, ()⟩ [num3 solidA, solidN, num3 solidB] =
      .ok ([(1, 2)], [solidN, num3 solidB, num3 solidA], ⟨0, ()⟩) := by
  refine ⟨insertionSort_sorts, by simp [sapN3, num3, solidN], ?_⟩
  decide +kernel

/-- The real tree operations on 3D boxes with NaN, as `flOps`; `surface_area`, `src/volume/aabb/aabb3.rs:271-275`: twice the sum of the three products of sides; no margin, minimum
improvement 1/10. -/
def flOps3 : Ops (Aabb3 (Fl ℚ)) (Aabb3 (Fl ℚ)) (Fl ℚ) :=
  nanOps3 id id
    (fun b => do
      let x0 ← b.min.x; let x1 ← b.max.x; let y0 ← b.min.y; let y1 ← b.max.y; let z0 ← b.min.z; let z1 ← b.max.z
      return 2 * ((x1 - x0) * (y1 - y0) + (x1 - x0) * (z1 - z0) + (y1 - y0) * (z1 - z0)))
    Fl.lt (fun a b => do return (← a) - (← b)) (fun a b => do return (← a) / (← b)) (some (1 / 10))

/-- C102, the tree in 3D: a box with NaN goes in first, then the two that meet; the broken box is given proper numbers, or removed, and `tick` called: the hypotheses of
`c102_tree3_partial` hold and a pair is found. -/
example (c : Call (Aabb3 (Fl ℚ))) (hc : c ∈ [Call.updateNode 1 (num3 ⟨⟨9, 0, 0⟩, ⟨10, 1, 1⟩⟩), Call.remove 1]) :
    ∃ h s n l, Exec flOps3 h s ∧ Disciplined flOps3 h ∧ UpToDate flOps3 h ∧ Refitted! h ∧
      (∀ (v : Aabb3 (Fl ℚ)) p, v = num3 p → containsN3 v v = true) ∧ (∀ e ∈ s.values, ∃ p, e.2 = num3 p) ∧ s.height = .ok n ∧ n ≤ 256 ∧
      dbvtPairs flOps3 isectN3 s (List.replicate s.values.length true) = .ok l ∧ l ≠ [] := by
  have hcs : ∀ c' ∈ [Call.insert solidN, .insert (num3 solidA), .insert (num3 solidB)] ++ [c], ∀ vs, c' ≠ .mutate vs := by
    intro c' hc' vs
    simp at hc hc'
    rcases hc' with rfl | rfl | rfl | rfl
    iterate 3 simp
    rcases hc with rfl | rfl <;> simp
  have h0 : (runCalls flOps3 20 ([Call.insert solidN, .insert (num3 solidA), .insert (num3 solidB)] ++ [c] ++ [.tick (fun _ => 0)]) [] Dbvt.new).map
      (fun p => (match p.2.height with | .ok n => n ≤ 256 | _ => false) &&
        (p.2.values.all fun e => e.2.min.x.isSome && e.2.min.y.isSome && e.2.min.z.isSome && e.2.max.x.isSome && e.2.max.y.isSome && e.2.max.z.isSome) &&
        (match dbvtPairs flOps3 isectN3 p.2 (List.replicate p.2.values.length true) with | .ok l => l ≠ [] | _ => false)) = some true := by
    simp at hc
    rcases hc with rfl | rfl <;> decide +kernel
  obtain ⟨⟨h, s⟩, hrun, hc⟩ := Option.map_eq_some_iff.1 h0
  obtain ⟨he, hd, hu, hr⟩ := run_tick hcs hrun
  simp only [Bool.and_eq_true] at hc
  obtain ⟨⟨h1, h2⟩, h3⟩ := hc
  cases hh : s.height with
  | ok n =>
    rw [hh] at h1
    cases hp : dbvtPairs flOps3 isectN3 s (List.replicate s.values.length true) with
    | ok l =>
      rw [hp] at h3
      refine ⟨h, s, n, l, he, hd, hu, hr, ?_, ?_, hh, by simpa using h1, hp, by simpa using h3⟩
      · rintro v p rfl; exact containsN3_iff.2 ⟨p, p, rfl, rfl, c26_order3.1 _⟩
      · intro e hm
        have := List.all_eq_true.1 h2 e hm
        simp only [Bool.and_eq_true, Option.isSome_iff_exists] at this
        obtain ⟨⟨⟨⟨⟨⟨a, ha⟩, ⟨b, hb⟩⟩, ⟨c, hc⟩⟩, ⟨d, hd⟩⟩, ⟨f, hf⟩⟩, ⟨g, hg⟩⟩ := this
        refine ⟨⟨⟨a, b, c⟩, ⟨d, f, g⟩⟩, ?_⟩
        rcases e with ⟨_, ⟨⟨_, _, _⟩, ⟨_, _, _⟩⟩⟩
        simp only [num3] at *; subst ha hb hc hd hf hg; rfl
    | panic => rw [hp] at h3; simp at h3
    | timeout => rw [hp] at h3; simp at h3
  | panic => rw [hh] at h1; simp at h1
  | timeout => rw [hh] at h1; simp at h1

end Verif.Witnesses
