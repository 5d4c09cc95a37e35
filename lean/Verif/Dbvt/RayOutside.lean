import Verif.Dbvt.RayClosest
import Verif.Dbvt.Within
/-!
# The closest hit of a ray that starts outside the scene (C16, C112)

`query_ray_closest` is right for every ray that starts outside of a box around all fat volumes that were given to the tree: no branch volume can then hold its origin.
-/
namespace Verif.Dbvt
open Verif Geom
set_option linter.unusedSectionVars false
variable {K : Type} [Field K] [LinearOrder K] [IsStrictOrderedRing K]

theorem mem_of_contains2 {A : Type} [LinearOrder A] {a b : Aabb2 A} (h : a.contains b = true) {p : V2 A} (hp : b.Mem p) : a.Mem p := by
  simp only [Aabb2.contains, Bool.and_eq_true, decide_eq_true_eq] at h
  obtain ⟨⟨⟨x1, y1⟩, x2⟩, y2⟩ := h
  exact ⟨⟨x1.trans hp.1.1, hp.1.2.trans x2⟩, y1.trans hp.2.1, hp.2.2.trans y2⟩
theorem mem_of_contains3 {A : Type} [LinearOrder A] {a b : Aabb3 A} (h : a.contains b = true) {p : V3 A} (hp : b.Mem p) : a.Mem p := by
  simp only [Aabb3.contains, Bool.and_eq_true, decide_eq_true_eq] at h
  obtain ⟨⟨⟨⟨⟨x1, y1⟩, z1⟩, x2⟩, y2⟩, z2⟩ := h
  exact ⟨⟨x1.trans hp.1.1, hp.1.2.trans x2⟩, ⟨y1.trans hp.2.1.1, hp.2.1.2.trans y2⟩, z1.trans hp.2.2.1, hp.2.2.2.trans z2⟩

/-- **C16 from outside the scene** (2D): the closest hit, for every ray that starts outside of a box `W` around all fat volumes that were given to the tree. -/
theorem c16_outside2_partial {V : Type} (bound fat : V → Box2 K) (im : K) (hfat : ∀ v, (fat v).1.contains (bound v).1 = true)
    {h : Hist V} {s : Dbvt V (Box2 K)} (he : Exec (boxOps2 bound fat im) h s) (hd : Disciplined (boxOps2 bound fat im) h) (hu : UpToDate (boxOps2 bound fat im) h)
    (hr : Refitted! h) {n : Nat} (hh : s.height = .ok n) (hn : n ≤ 256) (r : Ray2 K) (hdir : r.direction ≠ 0)
    (W : Aabb2 K) (hW : ∀ v, Given h v → W.contains (fat v).1 = true) (ho : ¬ W.Mem r.origin) :
    ∃ res, queryRayClosest2 (boxOps2 bound fat im) s r = .ok res ∧
      (res = none ↔ ∀ v ∈ s.values.map Prod.snd, ¬ ∃ t, r.Meets (bound v).1 t) ∧
      ∀ v p, res = some (v, p) → v ∈ s.values.map Prod.snd ∧ ∃ t, p = (r.at t).toExt ∧ HitAt2 r (bound v).1 t ∧
        ∀ w ∈ s.values.map Prod.snd, ∀ u, HitAt2 r (bound w).1 u → t ≤ u := by
  refine c16_closest2_partial bound fat im hfat he hd hu hr hh hn r hdir fun i b hb hm => ho ?_
  have := (c112_within _ he hr (fun b => W.contains b.1 = true) (fun a b h1 h2 => c25_union_least2 _ _ _ b.2 h1 h2) hW).1 i b hb
  exact mem_of_contains2 this hm

/-- **C16 from outside the scene** (3D). -/
theorem c16_outside3_partial {V : Type} (bound fat : V → Box3 K) (im : K) (hfat : ∀ v, (fat v).1.contains (bound v).1 = true)
    {h : Hist V} {s : Dbvt V (Box3 K)} (he : Exec (boxOps3 bound fat im) h s) (hd : Disciplined (boxOps3 bound fat im) h) (hu : UpToDate (boxOps3 bound fat im) h)
    (hr : Refitted! h) {n : Nat} (hh : s.height = .ok n) (hn : n ≤ 256) (nz : V3 Bool) (r : Ray3 K) (hdir : r.direction ≠ 0)
    (W : Aabb3 K) (hW : ∀ v, Given h v → W.contains (fat v).1 = true) (ho : ¬ W.Mem r.origin) :
    ∃ res, queryRayClosest3 (boxOps3 bound fat im) s nz r = .ok res ∧
      (res = none ↔ ∀ v ∈ s.values.map Prod.snd, ¬ ∃ t, r.Meets (bound v).1 t) ∧
      ∀ v p, res = some (v, p) → v ∈ s.values.map Prod.snd ∧ ∃ t, p = (r.at t).toExt ∧ HitAt3 nz r (bound v).1 t ∧
        ∀ w ∈ s.values.map Prod.snd, ∀ u, HitAt3 nz r (bound w).1 u → t ≤ u := by
  refine c16_closest3_partial bound fat im hfat he hd hu hr hh hn nz r hdir fun i b hb hm => ho ?_
  have := (c112_within _ he hr (fun b => W.contains b.1 = true) (fun a b h1 h2 => c25_union_least3 _ _ _ (Aabb3_pos_valid b.2) h1 h2) hW).1 i b hb
  exact mem_of_contains3 this hm

/-- The tree of `c16_false`, and a ray that starts to the left of everything. -/
example : ∃ (h : Hist (Box2 ℚ)) (s : Dbvt (Box2 ℚ) (Box2 ℚ)) (n : Nat) (r : Ray2 ℚ) (W : Aabb2 ℚ),
    Exec (boxOps2 (K := ℚ) id id (1 / 10)) h s ∧ Disciplined (boxOps2 (K := ℚ) id id (1 / 10)) h ∧
    UpToDate (boxOps2 (K := ℚ) id id (1 / 10)) h ∧ Refitted! h ∧ s.height = .ok n ∧ n ≤ 256 ∧ r.direction ≠ 0 ∧
    (∀ v, Given h v → W.contains (id v).1 = true) ∧ ¬ W.Mem r.origin ∧ s.values.length = 3 := by
  have h0 : (runCalls (boxOps2 (K := ℚ) id id (1 / 10)) 20 (closestBoxes.map .insert ++ [.tick (fun _ => 0)]) [] Dbvt.new).map
      (fun p => (match p.2.height with | .ok n => n ≤ 256 | _ => false) && (p.2.values.length = 3)) = some true := by decide +kernel
  obtain ⟨⟨h, s⟩, hrun, hc⟩ := Option.map_eq_some_iff.1 h0
  obtain ⟨he, hd, hu, hr⟩ := run_inserts hrun
  have hg : ∀ v, Given h v → v ∈ closestBoxes := by
    have gen : ∀ (cs : List (Call (Box2 ℚ))) (h0 : Hist (Box2 ℚ)) (s0 : Dbvt (Box2 ℚ) (Box2 ℚ)), (∀ c ∈ cs, (∃ v ∈ closestBoxes, c = .insert v) ∨ c = .tick (fun _ => 0)) → (∀ v, Given h0 v → v ∈ closestBoxes) →
        runCalls (boxOps2 (K := ℚ) id id (1 / 10)) 20 cs h0 s0 = some (h, s) → ∀ v, Given h v → v ∈ closestBoxes := by
      intro cs
      induction cs with
      | nil => intro h0 s0 _ hg hr; cases hr; exact hg
      | cons c cs ih =>
        intro h0 s0 hcs hg hr
        simp only [runCalls] at hr
        split at hr
        · refine ih _ _ (fun c hc => hcs c (List.mem_cons_of_mem _ hc)) ?_ hr
          rcases hcs c List.mem_cons_self with ⟨w, hw, rfl⟩ | rfl
          · rintro v (rfl | hv)
            · exact hw
            · exact hg v hv
          · exact fun v hv => hg v hv
        · cases hr
    refine gen _ [] Dbvt.new ?_ (fun v hv => absurd hv id) hrun
    intro c hc
    rw [List.mem_append, List.mem_map, List.mem_singleton] at hc
    rcases hc with ⟨v, hv, rfl⟩ | rfl
    · exact Or.inl ⟨v, hv, rfl⟩
    · exact Or.inr rfl
  simp only [Bool.and_eq_true] at hc
  cases hh : s.height with
  | ok n =>
    rw [hh] at hc
    refine ⟨h, s, n, ⟨⟨-5, 0⟩, ⟨1, 0⟩⟩, ⟨⟨-3, -6⟩, ⟨8, 3⟩⟩, he, hd, hu, hr, hh, of_decide_eq_true hc.1, ?_, ?_, ?_, of_decide_eq_true hc.2⟩
    · intro h; have := congrArg V2.x h; simp at this
    · intro v hv
      have := hg v hv
      simp only [closestBoxes, List.mem_cons, List.not_mem_nil, or_false] at this
      rcases this with rfl | rfl | rfl <;> decide +kernel
    · intro hm
      have := hm.1.1
      norm_num at this
  | panic => rw [hh] at hc; exact absurd hc.1 (by simp)
  | timeout => rw [hh] at hc; exact absurd hc.1 (by simp)
end Verif.Dbvt
