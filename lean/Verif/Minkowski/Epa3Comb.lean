import Verif.Minkowski.Epa3Cone
import Mathlib.Algebra.BigOperators.Group.List.Basic
import Mathlib.Data.List.Perm.Basic
/-!
# Generic directions, and the edges of the EPA polytope (for C70 in 3D)
-/
namespace Verif.Minkowski
open Verif Geom Primitive
set_option linter.unusedSectionVars false

section
variable {K : Type} [Field K] [LinearOrder K] [IsStrictOrderedRing K]

/-- Of the four faces of a tetrahedron around the origin exactly one has a given (generic) direction in its cone. -/
theorem chi_base {u a b c d : V3 K} (h1 : 0 < vol a b c) (h2 : 0 < vol a c d) (h3 : 0 < vol a d b) (h4 : 0 < vol b d c)
    (gab : vol u a b ≠ 0) (gac : vol u a c ≠ 0) (gad : vol u a d ≠ 0) (gbc : vol u b c ≠ 0) (gbd : vol u b d ≠ 0) (gcd : vol u c d ≠ 0) :
    chi u a b c + chi u a c d + chi u a d b + chi u b d c = 1 := by
  have sw : ∀ x y : V3 K, vol u x y = -vol u y x := fun x y => by simp only [vol, V3.dot, V3.cross]; ring
  -- the origin as a positive combination of the four points, seen along `u`
  have r1 : vol a d b * vol u a c + vol a c d * vol u a b + vol a b c * vol u a d = 0 := by
    have : vol a d b * vol u a c + vol a c d * vol u a b + vol a b c * vol u a d = 0 := by
      simp only [vol, V3.dot, V3.cross]; ring
    exact this
  have r2 : vol b d c * vol u a b = vol a d b * vol u b c + vol a b c * vol u b d := by
    simp only [vol, V3.dot, V3.cross]; ring
  have r3 : vol b d c * vol u a c + vol a c d * vol u b c = vol a b c * vol u c d := by
    simp only [vol, V3.dot, V3.cross]; ring
  have r4 : vol b d c * vol u a d + vol a c d * vol u b d + vol a d b * vol u c d = 0 := by
    simp only [vol, V3.dot, V3.cross]; ring
  unfold chi
  rw [inCone_pos h1, inCone_pos h2, inCone_pos h3, inCone_pos h4, sw c a, sw d a, sw b a, sw d b, sw d c, sw c b]
  generalize vol a b c = p1 at *
  generalize vol a c d = p2 at *
  generalize vol a d b = p3 at *
  generalize vol b d c = p4 at *
  generalize vol u a b = A at *
  generalize vol u a c = B at *
  generalize vol u a d = C at *
  generalize vol u b c = D at *
  generalize vol u b d = E at *
  generalize vol u c d = F at *
  rcases lt_or_gt_of_ne gab with k1 | k1 <;> rcases lt_or_gt_of_ne gac with k2 | k2 <;> rcases lt_or_gt_of_ne gad with k3 | k3 <;>
    rcases lt_or_gt_of_ne gbc with k4 | k4 <;> rcases lt_or_gt_of_ne gbd with k5 | k5 <;> rcases lt_or_gt_of_ne gcd with k6 | k6 <;>
    first
    | (simp [k1, k2, k3, k4, k5, k6, k1.not_gt, k2.not_gt, k3.not_gt, k4.not_gt, k5.not_gt, k6.not_gt]; done)
    | (exfalso; linarith [mul_pos h3 k2, mul_pos h2 k1, mul_pos h1 k3])
    | (exfalso; linarith [mul_neg_of_pos_of_neg h3 k2, mul_neg_of_pos_of_neg h2 k1, mul_neg_of_pos_of_neg h1 k3])
    | (exfalso; linarith [mul_pos h4 k1, mul_neg_of_pos_of_neg h3 k4, mul_neg_of_pos_of_neg h1 k5])
    | (exfalso; linarith [mul_neg_of_pos_of_neg h4 k1, mul_pos h3 k4, mul_pos h1 k5])
    | (exfalso; linarith [mul_pos h4 k2, mul_pos h2 k4, mul_neg_of_pos_of_neg h1 k6])
    | (exfalso; linarith [mul_neg_of_pos_of_neg h4 k2, mul_neg_of_pos_of_neg h2 k4, mul_pos h1 k6])
    | (exfalso; linarith [mul_pos h4 k3, mul_pos h2 k5, mul_pos h3 k6])
    | (exfalso; linarith [mul_neg_of_pos_of_neg h4 k3, mul_neg_of_pos_of_neg h2 k5, mul_neg_of_pos_of_neg h3 k6])

/-- Close to every vector there is one that is orthogonal to none of finitely many vectors. -/
theorem exists_generic (ws : List (V3 K)) (hw : ∀ w ∈ ws, w ≠ 0) (z : V3 K) : ∀ {η : K}, 0 < η →
    ∃ u : V3 K, |u.x - z.x| < η ∧ |u.y - z.y| < η ∧ |u.z - z.z| < η ∧ ∀ w ∈ ws, u.dot w ≠ 0 := by
  induction ws with
  | nil => intro η h; exact ⟨z, by simpa, by simpa, by simpa, by simp⟩
  | cons w ws ih =>
    intro η h
    obtain ⟨u, hx, hy, hz, hu⟩ := ih (fun w hw' => hw w (List.mem_cons_of_mem _ hw')) (half_pos h)
    by_cases h0 : u.dot w = 0
    swap
    · refine ⟨u, by linarith, by linarith, by linarith, ?_⟩
      intro v hv
      rcases List.mem_cons.1 hv with rfl | hv
      · exact h0
      · exact hu v hv
    have hw0 := hw w List.mem_cons_self
    -- a bound for the step along `w`
    have key : ∃ e : K, 0 < e ∧ ∀ v ∈ ws, ∀ s, 0 < s → s ≤ e → (u + w * s).dot v ≠ 0 := by
      clear ih hw hx hy hz
      induction ws with
      | nil => exact ⟨1, one_pos, by simp⟩
      | cons v vs ih2 =>
        obtain ⟨e, he, h2⟩ := ih2 (fun v' hv' => hu v' (List.mem_cons_of_mem _ hv'))
        have hv := hu v List.mem_cons_self
        have hd : ∀ s : K, (u + w * s).dot v = u.dot v + s * w.dot v := by
          intro s; simp only [V3.dot, V3.add_x, V3.add_y, V3.add_z, V3.mul_x, V3.mul_y, V3.mul_z]; ring
        refine ⟨min e (|u.dot v| / (2 * (|w.dot v| + 1))), lt_min he (div_pos (abs_pos.2 hv) (by positivity)), ?_⟩
        intro v' hv' s hs hse
        rcases List.mem_cons.1 hv' with rfl | hv'
        · rw [hd]
          intro h0
          have h1 : |u.dot v'| = s * |w.dot v'| := by
            have : u.dot v' = -(s * w.dot v') := by linarith
            rw [this, abs_neg, abs_mul, abs_of_pos hs]
          have h3 := le_trans hse (min_le_right _ _)
          rw [le_div_iff₀ (by positivity)] at h3
          have h4 := abs_nonneg (w.dot v')
          nlinarith [abs_pos.2 hv]
        · exact h2 v' hv' s hs (le_trans hse (min_le_left _ _))
    obtain ⟨e, he, hk⟩ := key
    set M := |w.x| + |w.y| + |w.z| + 1 with hM
    have hMx : |w.x| < M := by have := abs_nonneg w.y; have := abs_nonneg w.z; linarith
    have hMy : |w.y| < M := by have := abs_nonneg w.x; have := abs_nonneg w.z; linarith
    have hMz : |w.z| < M := by have := abs_nonneg w.x; have := abs_nonneg w.y; linarith
    have hMp : 0 < M := lt_of_le_of_lt (abs_nonneg _) hMx
    set s := min e (η / 2 / M) with hs
    have hs0 : 0 < s := lt_min he (by positivity)
    have hsM : s * M ≤ η / 2 := by
      have := min_le_right e (η / 2 / M)
      rw [← hs, le_div_iff₀ hMp] at this
      exact this
    have step : ∀ a b c : K, |a - b| < η / 2 → |c| < M → |a + c * s - b| < η := by
      intro a b c h1 h2
      have e1 : a + c * s - b = (a - b) + c * s := by ring
      rw [e1]
      refine lt_of_le_of_lt (abs_add_le _ _) ?_
      rw [abs_mul, abs_of_pos hs0]
      nlinarith
    refine ⟨u + w * s, step _ _ _ hx hMx, step _ _ _ hy hMy, step _ _ _ hz hMz, ?_⟩
    intro v hv
    rcases List.mem_cons.1 hv with rfl | hv
    · have : (u + v * s).dot v = u.dot v + s * v.dot v := by
        simp only [V3.dot, V3.add_x, V3.add_y, V3.add_z, V3.mul_x, V3.mul_y, V3.mul_z]; ring
      rw [this, h0, zero_add]
      exact (mul_pos hs0 (dot_self_pos3 hw0)).ne'
    · exact hk v hv s hs0 (min_le_left _ _)

/-- A strict sign of a linear form holds close by. -/
theorem open_neg (z w : V3 K) (h : z.dot w < 0) : ∃ η : K, 0 < η ∧ ∀ u : V3 K, |u.x - z.x| < η → |u.y - z.y| < η → |u.z - z.z| < η → u.dot w < 0 := by
  set M := |w.x| + |w.y| + |w.z| + 1 with hM
  have hMp : 0 < M := by positivity
  refine ⟨-(z.dot w) / M, div_pos (by linarith) hMp, ?_⟩
  intro u hx hy hz
  rw [lt_div_iff₀ hMp] at hx hy hz
  have e : u.dot w = z.dot w + ((u.x - z.x) * w.x + (u.y - z.y) * w.y + (u.z - z.z) * w.z) := by simp only [V3.dot]; ring
  have b1 : (u.x - z.x) * w.x ≤ |u.x - z.x| * |w.x| := by rw [← abs_mul]; exact le_abs_self _
  have b2 : (u.y - z.y) * w.y ≤ |u.y - z.y| * |w.y| := by rw [← abs_mul]; exact le_abs_self _
  have b3 : (u.z - z.z) * w.z ≤ |u.z - z.z| * |w.z| := by rw [← abs_mul]; exact le_abs_self _
  have b4 : |u.x - z.x| * |w.x| * M ≤ -(z.dot w) * |w.x| := by nlinarith [abs_nonneg w.x]
  have b5 : |u.y - z.y| * |w.y| * M ≤ -(z.dot w) * |w.y| := by nlinarith [abs_nonneg w.y]
  have b6 : |u.z - z.z| * |w.z| * M ≤ -(z.dot w) * |w.z| := by nlinarith [abs_nonneg w.z]
  have : ((u.x - z.x) * w.x + (u.y - z.y) * w.y + (u.z - z.z) * w.z) * M ≤ -(z.dot w) * (M - 1) := by
    have : M - 1 = |w.x| + |w.y| + |w.z| := by rw [hM]; ring
    rw [this]
    nlinarith
  rw [e]
  by_contra hn
  push Not at hn
  nlinarith
end

/-! ## Edges -/

/-- The directed edges of a triangle. -/
def triEdges (t : Nat × Nat × Nat) : List (Nat × Nat) := [(t.1, t.2.1), (t.2.1, t.2.2), (t.2.2, t.1)]

section
variable {A : Type} [AddCommGroup A]

theorem sum_removeOrAdd (φ : Nat × Nat → A) (hφ : ∀ a b, φ (b, a) = -φ (a, b)) (es : List (Nat × Nat)) (e : Nat × Nat) :
    ((removeOrAddEdge es e).map φ).sum = (es.map φ).sum + φ e := by
  unfold removeOrAddEdge
  cases h : es.findIdx? (fun x => decide (e.1 = x.2 ∧ e.2 = x.1)) with
  | none => simp
  | some i =>
    dsimp only
    obtain ⟨hi, hp, -⟩ := List.findIdx?_eq_some_iff_getElem.1 h
    simp only [decide_eq_true_eq] at hp
    have hperm := (List.getElem_cons_eraseIdx_perm hi).map φ
    have hs := hperm.sum_eq
    rw [List.map_cons, List.sum_cons] at hs
    have : φ es[i] = -φ e := by
      have : es[i] = (e.2, e.1) := Prod.ext hp.2.symm hp.1.symm
      rw [this, hφ]
    rw [this] at hs
    rw [← hs]; abel

theorem sum_fold (φ : Nat × Nat → A) (hφ : ∀ a b, φ (b, a) = -φ (a, b)) (new : List (Nat × Nat)) : ∀ es : List (Nat × Nat),
    ((new.foldl removeOrAddEdge es).map φ).sum = (es.map φ).sum + (new.map φ).sum := by
  induction new with
  | nil => intro es; simp
  | cons e new ih => intro es; rw [List.foldl_cons, ih, sum_removeOrAdd φ hφ, List.map_cons, List.sum_cons]; abel
end

theorem mem_removeOrAdd {es : List (Nat × Nat)} {e x : Nat × Nat} (h : x ∈ removeOrAddEdge es e) : x ∈ es ∨ x = e := by
  unfold removeOrAddEdge at h
  split at h
  · exact .inl (List.mem_of_mem_eraseIdx h)
  · simpa using h

theorem mem_fold (new : List (Nat × Nat)) : ∀ es x, x ∈ new.foldl removeOrAddEdge es → x ∈ es ∨ x ∈ new := by
  induction new with
  | nil => intro es x h; exact .inl h
  | cons e new ih =>
    intro es x h
    rw [List.foldl_cons] at h
    rcases ih _ _ h with h | h
    · rcases mem_removeOrAdd h with h | rfl
      · exact .inl h
      · exact .inr List.mem_cons_self
    · exact .inr (List.mem_cons_of_mem _ h)

/-- No edge is left together with its reverse. -/
def NoReverse (es : List (Nat × Nat)) : Prop := ∀ a b, (a, b) ∈ es → (b, a) ∉ es

theorem noReverse_removeOrAdd {es : List (Nat × Nat)} (h : NoReverse es) {e : Nat × Nat} (he : e.1 ≠ e.2) : NoReverse (removeOrAddEdge es e) := by
  unfold removeOrAddEdge
  split
  · intro a b h1 h2
    exact h a b (List.mem_of_mem_eraseIdx h1) (List.mem_of_mem_eraseIdx h2)
  · rename_i hn
    rw [List.findIdx?_eq_none_iff] at hn
    intro a b h1 h2
    rcases List.mem_append.1 h1 with h1 | h1 <;> rcases List.mem_append.1 h2 with h2 | h2
    · exact h a b h1 h2
    · have := hn _ h1
      simp only [List.mem_singleton] at h2
      subst h2
      simp at this
    · have := hn _ h2
      simp only [List.mem_singleton] at h1
      subst h1
      simp at this
    · simp only [List.mem_singleton] at h1 h2
      subst h1
      simp only [Prod.mk.injEq] at h2
      exact he h2.1.symm

theorem noReverse_fold (new : List (Nat × Nat)) (hn : ∀ e ∈ new, e.1 ≠ e.2) : ∀ es, NoReverse es → NoReverse (new.foldl removeOrAddEdge es) := by
  induction new with
  | nil => intro es h; exact h
  | cons e new ih =>
    intro es h
    rw [List.foldl_cons]
    exact ih (fun e he => hn e (List.mem_cons_of_mem _ he)) _ (noReverse_removeOrAdd h (hn e List.mem_cons_self))

end Verif.Minkowski
