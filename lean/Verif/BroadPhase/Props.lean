import Verif.BroadPhase.Model
import Mathlib.Data.List.Perm.Basic
/-!
# Broad phases: C19 (brute force), C20 (sweep and prune), C21 (sweep axis), C22 (tree), C23 (agreement)
-/
namespace Verif.BroadPhase
open Verif Dbvt
set_option linter.unusedSectionVars false

variable {A B K σ : Type}

/-- Specification: the shapes at positions `i` and `j` exist and their bounds intersect. -/
def Hit (bound : A → B) (isect : B → B → Bool) (shapes : List A) (i j : Nat) : Prop :=
  ∃ a b, shapes[i]? = some a ∧ shapes[j]? = some b ∧ isect (bound a) (bound b) = true

/-- Specification: strictly increasing in lexicographic order (hence without duplicates). -/
def LexSorted (l : List (Nat × Nat)) : Prop := l.Pairwise plt

theorem plt_irrefl (p : Nat × Nat) : ¬ plt p p := by simp [plt]
theorem plt_trans {p q r : Nat × Nat} (h1 : plt p q) (h2 : plt q r) : plt p r := by simp only [plt] at *; omega
theorem plt_total {p q : Nat × Nat} (h : p ≠ q) : plt p q ∨ plt q p := by
  simp only [plt, ne_eq, Prod.ext_iff] at *; omega
theorem LexSorted.nodup {l : List (Nat × Nat)} (h : LexSorted l) : l.Nodup := by
  refine List.Pairwise.imp ?_ h
  intro a b hab e
  subst e
  exact plt_irrefl _ hab

/-- A strictly sorted list is determined by its elements. -/
theorem LexSorted.ext {l m : List (Nat × Nat)} (hl : LexSorted l) (hm : LexSorted m) (h : ∀ p, p ∈ l ↔ p ∈ m) : l = m := by
  induction l generalizing m with
  | nil =>
    cases m with
    | nil => rfl
    | cons q m => exact absurd ((h q).2 (by simp)) (by simp)
  | cons p l ih =>
    cases m with
    | nil => exact absurd ((h p).1 (by simp)) (by simp)
    | cons q m =>
      rw [LexSorted, List.pairwise_cons] at hl hm
      have hpq : p = q := by
        by_contra hne
        have h1 : plt q p := hm.1 p (by have := (h p).1 (by simp); simpa [hne] using this)
        have h2 : plt p q := hl.1 q (by have := (h q).2 (by simp); simpa [Ne.symm hne] using this)
        exact plt_irrefl _ (plt_trans h1 h2)
      subst hpq
      congr 1
      refine ih hl.2 hm.2 fun x => ?_
      have := h x
      simp only [List.mem_cons] at this
      constructor
      · intro hx
        rcases this.1 (Or.inr hx) with rfl | h'
        · exact absurd (hl.1 _ hx) (plt_irrefl _)
        · exact h'
      · intro hx
        rcases this.2 (Or.inr hx) with rfl | h'
        · exact absurd (hm.1 _ hx) (plt_irrefl _)
        · exact h'

theorem forRes_append {α β : Type} (f : α → β → Res α) (a : α) (l m : List β) :
    forRes f a (l ++ m) = (forRes f a l).bind fun b => forRes f b m := by
  induction l generalizing a with
  | nil => rfl
  | cons b l ih =>
    simp only [List.cons_append, forRes]
    cases f a b with
    | ok c => simp only [Res.bind_ok]; exact ih c
    | panic => rfl
    | timeout => rfl

/-- Loop invariant rule for `for` over a range `[lo, lo + n)`. -/
theorem forRes_range {α : Type} (f : α → Nat → Res α) (P : Nat → α → Prop) (lo n : Nat) (a : α) (h0 : P lo a)
    (step : ∀ k a, lo ≤ k → k < lo + n → P k a → ∃ b, f a k = .ok b ∧ P (k + 1) b) :
    ∃ b, forRes f a (List.range' lo n) = .ok b ∧ P (lo + n) b := by
  induction n generalizing lo a with
  | zero => exact ⟨a, rfl, h0⟩
  | succ n ih =>
    obtain ⟨b, h1, h2⟩ := step lo a le_rfl (by omega) h0
    simp only [List.range'_succ, forRes, h1, Res.bind_ok]
    obtain ⟨c, h3, h4⟩ := ih (lo + 1) b h2 (fun k a h1 h2 => step k a (by omega) (by omega))
    exact ⟨c, h3, by rwa [show lo + (n + 1) = lo + 1 + n by omega]⟩

/-! ## C19 -/

/-- C19: brute force returns exactly the pairs `(i, j)` with `i < j` whose bounds intersect, each once, in
lexicographic order; it never panics. -/
theorem c19_brute_force (bound : A → B) (isect : B → B → Bool) (shapes : List A) :
    ∃ l, bruteForce bound isect shapes = .ok l ∧ LexSorted l ∧
      ∀ i j, (i, j) ∈ l ↔ i < j ∧ Hit bound isect shapes i j := by
  unfold bruteForce
  by_cases hlen : shapes.length ≤ 1
  · refine ⟨[], by rw [if_pos hlen], by simp [LexSorted], fun i j => ?_⟩
    simp only [List.not_mem_nil, false_iff]
    rintro ⟨hij, a, b, -, hb, -⟩
    obtain ⟨hj, -⟩ := List.getElem?_eq_some_iff.1 hb
    omega
  · rw [if_neg hlen, List.range_eq_range']
    obtain ⟨l, h1, h2⟩ := forRes_range (fun pairs left_index => do
      let left ← Res.ofOption shapes[left_index]?
      forRes (fun pairs right_index => do
        let right ← Res.ofOption shapes[right_index]?
        if isect (bound left) (bound right) then return pairs ++ [(left_index, right_index)] else return pairs)
        pairs (List.range' (left_index + 1) (shapes.length - (left_index + 1)))) (fun k l => LexSorted l ∧
      ∀ i j, (i, j) ∈ l ↔ i < k ∧ i < j ∧ Hit bound isect shapes i j) 0 (shapes.length - 1) [] ⟨by simp [LexSorted], by simp⟩ (by
      intro k l _ hk ⟨hs, hm⟩
      have hk' : k < shapes.length := by omega
      obtain ⟨a, ha⟩ : ∃ a, shapes[k]? = some a := ⟨_, List.getElem?_eq_getElem hk'⟩
      simp only [ha, Res.ofOption_some, Res.bind_ok]
      obtain ⟨l', h1, h2, h3⟩ := forRes_range (fun pairs right_index => do
        let right ← Res.ofOption shapes[right_index]?
        if isect (bound a) (bound right) then return pairs ++ [(k, right_index)] else return pairs)
        (fun m l => LexSorted l ∧ ∀ i j, (i, j) ∈ l ↔ (i < k ∧ i < j ∧ Hit bound isect shapes i j) ∨ (i = k ∧ i < j ∧ j < m ∧ Hit bound isect shapes i j))
        (k + 1) (shapes.length - (k + 1)) l ⟨hs, by intro i j; rw [hm]; constructor
                                                    · exact Or.inl
                                                    · rintro (h | ⟨h1, h2, h3, -⟩)
                                                      · exact h
                                                      · omega⟩ (by
        intro m l hm1 hm2 ⟨hs, hm⟩
        have hm' : m < shapes.length := by omega
        obtain ⟨b, hb⟩ : ∃ b, shapes[m]? = some b := ⟨_, List.getElem?_eq_getElem hm'⟩
        simp only [hb, Res.ofOption_some, Res.bind_ok]
        by_cases hi : isect (bound a) (bound b) = true
        · refine ⟨l ++ [(k, m)], by simp [hi], ?_, ?_⟩
          · rw [LexSorted, List.pairwise_append]
            refine ⟨hs, by simp, ?_⟩
            rintro ⟨i, j⟩ hp q hq
            simp only [List.mem_singleton] at hq
            subst hq
            rcases (hm i j).1 hp with h | h
            · exact Or.inl h.1
            · exact Or.inr ⟨h.1, h.2.2.1⟩
          · intro i j
            rw [List.mem_append, hm, List.mem_singleton, Prod.mk.injEq]
            constructor
            · rintro ((h | h) | ⟨rfl, rfl⟩)
              · exact Or.inl h
              · exact Or.inr ⟨h.1, h.2.1, by omega, h.2.2.2⟩
              · exact Or.inr ⟨rfl, by omega, by omega, a, b, ha, hb, hi⟩
            · rintro (h | ⟨h1, h2, h3, h4⟩)
              · exact Or.inl (Or.inl h)
              · by_cases hjm : j = m
                · exact Or.inr ⟨h1, hjm⟩
                · exact Or.inl (Or.inr ⟨h1, h2, by omega, h4⟩)
        · refine ⟨l, by simp [hi], hs, ?_⟩
          intro i j
          rw [hm]
          constructor
          · rintro (h | h)
            · exact Or.inl h
            · exact Or.inr ⟨h.1, h.2.1, by omega, h.2.2.2⟩
          · rintro (h | ⟨h1, h2, h3, h4⟩)
            · exact Or.inl h
            · right
              refine ⟨h1, h2, ?_, h4⟩
              by_contra hc
              have : j = m := by omega
              subst this; subst h1
              obtain ⟨a', b', e1, e2, e3⟩ := h4
              rw [ha] at e1; rw [hb] at e2
              simp only [Option.some.injEq] at e1 e2
              subst e1; subst e2
              exact hi e3)
      refine ⟨l', h1, h2, ?_⟩
      intro i j
      rw [h3]
      constructor
      · rintro (h | h)
        · exact ⟨by omega, h.2⟩
        · exact ⟨by omega, h.2.1, h.2.2.2⟩
      · rintro ⟨h1, h2, h3⟩
        by_cases hik : i = k
        · refine Or.inr ⟨hik, h2, ?_, h3⟩
          obtain ⟨a', b', -, e2, -⟩ := h3
          have := (List.getElem?_eq_some_iff.1 e2).1
          omega
        · exact Or.inl ⟨by omega, h2, h3⟩)
    refine ⟨l, h1, h2.1, fun i j => ?_⟩
    rw [h2.2]
    constructor
    · exact fun h => h.2
    · intro h
      refine ⟨?_, h⟩
      obtain ⟨h1, a', b', -, e2, -⟩ := h
      have := (List.getElem?_eq_some_iff.1 e2).1
      omega

/-- Three intervals of which two pairs overlap. -/
example : bruteForce id (fun (a b : Int × Int) => decide (a.1 ≤ b.2 ∧ b.1 ≤ a.2)) [(0, 5), (4, 9), (8, 10), (20, 21)] =
    .ok [(0, 1), (1, 2)] := by decide

/-! ## C20 -/

/-- Specification: an intersection test that implies overlap of the closed extents along the axis. -/
def SapBound.Overlaps [LinearOrder K] (O : SapBound B K) (axis : Nat) : Prop :=
  ∀ a b, O.isect a b = true → O.minE b axis ≤ O.maxE a axis

theorem retainRes_ok {α : Type} (p : α → Res Bool) (q : α → Bool) (l : List α) (h : ∀ a ∈ l, p a = .ok (q a)) :
    retainRes p l = .ok (l.filter q) := by
  induction l with
  | nil => rfl
  | cons a l ih =>
    simp only [retainRes, h a (by simp), Res.bind_ok, ih (fun b hb => h b (by simp [hb])), Res.pure_eq, List.filter_cons]

theorem forRes_ok {α β : Type} (f : α → β → Res α) (g : α → β → α) (l : List β) (a : α) (h : ∀ a, ∀ b ∈ l, f a b = .ok (g a b)) :
    forRes f a l = .ok (l.foldl g a) := by
  induction l generalizing a with
  | nil => rfl
  | cons b l ih =>
    simp only [forRes, h a b (by simp), Res.bind_ok, List.foldl_cons]
    exact ih _ (fun a b hb => h a b (by simp [hb]))

theorem foldl_push {β γ : Type} (q : β → Bool) (g : β → γ) (l : List β) (acc : List γ) :
    l.foldl (fun acc b => if q b then acc ++ [g b] else acc) acc = acc ++ (l.filter q).map g := by
  induction l generalizing acc with
  | nil => simp
  | cons b l ih =>
    simp only [List.foldl_cons, ih, List.filter_cons]
    split <;> simp

/-- Order in which sweep and prune lists its pairs: by second, then by first position. -/
def colex (p q : Nat × Nat) : Prop := p.2 < q.2 ∨ (p.2 = q.2 ∧ p.1 < q.1)

variable [LinearOrder K]

theorem sapLe_trans (O : SapBound B K) (axis : Nat) (a b c : B) (h1 : sapLe O axis a b = true) (h2 : sapLe O axis b c = true) :
    sapLe O axis a c = true := by
  simp only [sapLe] at *
  split at h1 <;> split at h2 <;> simp only [decide_eq_true_eq] at h1 h2 <;> split <;> simp only [decide_eq_true_eq] <;> grind

theorem sapLe_total (O : SapBound B K) (axis : Nat) (a b : B) : (sapLe O axis a b || sapLe O axis b a) = true := by
  simp only [sapLe, Bool.or_eq_true]
  split <;> split <;> simp only [decide_eq_true_eq] <;> grind

theorem sapLe_min (O : SapBound B K) (axis : Nat) (a b : B) (h : sapLe O axis a b = true) : O.minE a axis ≤ O.minE b axis := by
  simp only [sapLe] at h
  split at h <;> simp only [decide_eq_true_eq] at h <;> grind

/-- The sweep over a list sorted by minimum extent. -/
theorem sweep_spec (O : SapBound B K) (v : VarOps σ B) (bound : A → B) (axis : Nat) (hov : O.Overlaps axis) (shapes : List A)
    (hsort : ∀ (i j : Nat) a b, i < j → shapes[i]? = some a → shapes[j]? = some b → O.minE (bound a) axis ≤ O.minE (bound b) axis)
    (hlen : 1 < shapes.length) (var0 : σ) (f : A) (hf : shapes[0]? = some f) :
    ∃ pairs active var', forRes (sapStep O v bound axis shapes) ([], [0], v.addBound var0 (bound f)) (List.range' 1 (shapes.length - 1)) =
        .ok (pairs, active, var') ∧ var' = (shapes.map bound).foldl v.addBound var0 ∧
      pairs.Pairwise colex ∧ ∀ i j, (i, j) ∈ pairs ↔ i < j ∧ Hit bound O.isect shapes i j := by
  obtain ⟨⟨pairs, active, var'⟩, h1, h2⟩ := forRes_range (sapStep O v bound axis shapes) (fun k st =>
      st.2.2 = ((shapes.take k).map bound).foldl v.addBound var0 ∧ st.1.Pairwise colex ∧ (∀ i j, (i, j) ∈ st.1 ↔ i < j ∧ j < k ∧ Hit bound O.isect shapes i j) ∧
      st.2.1.Pairwise (· < ·) ∧ (∀ i ∈ st.2.1, i < k) ∧
      (∀ i < k, i ∉ st.2.1 → ∃ m a b, m < k ∧ shapes[i]? = some a ∧ shapes[m]? = some b ∧ O.maxE (bound a) axis < O.minE (bound b) axis))
    1 (shapes.length - 1) ([], [0], v.addBound var0 (bound f)) (by
      refine ⟨?_, by simp, ?_, by simp, by simp, ?_⟩
      · match shapes, hf with
        | a :: _, hf => simp at hf; subst hf; simp
      · intro i j; simp; intro h1 h2; omega
      · intro i hi h; simp at h; omega) (by
    rintro k ⟨pairs, active, var⟩ hk1 hk2 ⟨p0, p1, p2, p3, p4, p5⟩
    simp only at p0 p1 p2 p3 p4 p5
    have hk : k < shapes.length := by omega
    obtain ⟨sh, hsh⟩ : ∃ a, shapes[k]? = some a := ⟨_, List.getElem?_eq_getElem hk⟩
    let g : Nat → A := fun i => (shapes[i]?).getD sh
    have hg : ∀ i < shapes.length, shapes[i]? = some (g i) := by
      intro i hi; simp only [g, List.getElem?_eq_getElem hi, Option.getD_some]
    have hretain := retainRes_ok (fun ai => do
      let a ← Res.ofOption shapes[ai]?
      return decide (O.minE (bound sh) axis ≤ O.maxE (bound a) axis)) (fun ai => decide (O.minE (bound sh) axis ≤ O.maxE (bound (g ai)) axis)) active (by
      intro a ha
      rw [hg a (by have := p4 a ha; omega)]
      rfl)
    have hfor := forRes_ok (fun (pairs : List (Nat × Nat)) ai => do
      let a ← Res.ofOption shapes[ai]?
      if O.isect (bound a) (bound sh) then return pairs ++ [(ai, k)] else return pairs)
      (fun pairs ai => if O.isect (bound (g ai)) (bound sh) then pairs ++ [(ai, k)] else pairs)
      (active.filter (fun ai => decide (O.minE (bound sh) axis ≤ O.maxE (bound (g ai)) axis))) pairs (by
      intro acc a ha
      rw [hg a (by have := p4 a (List.mem_filter.1 ha).1; omega)]
      simp only [Res.ofOption_some, Res.bind_ok]
      split <;> rfl)
    rw [foldl_push] at hfor
    refine ⟨_, by simp only [sapStep, hsh, Res.ofOption_some, Res.bind_ok, hretain, hfor]; rfl, ?_, ?_, ?_, ?_, ?_, ?_⟩
    · simp only
      rw [List.take_add_one, hsh, p0]
      simp
    · simp only
      rw [List.pairwise_append]
      refine ⟨p1, ?_, ?_⟩
      · rw [List.pairwise_map]
        refine List.Pairwise.imp (fun {a b} h => Or.inr ⟨rfl, h⟩) ((p3.filter _).filter _)
      · rintro ⟨i, j⟩ hp q hq
        obtain ⟨x, hx, rfl⟩ := List.mem_map.1 hq
        exact Or.inl ((p2 i j).1 hp).2.1
    · simp only
      intro i j
      rw [List.mem_append, p2, List.mem_map]
      constructor
      · rintro (h | ⟨x, hx, he⟩)
        · exact ⟨h.1, by omega, h.2.2⟩
        · simp only [Prod.mk.injEq] at he
          obtain ⟨rfl, rfl⟩ := he
          simp only [List.mem_filter, decide_eq_true_eq] at hx
          have := p4 _ hx.1.1
          exact ⟨this, by omega, g x, sh, hg x (by omega), hsh, hx.2⟩
      · rintro ⟨h1, h2, h3⟩
        by_cases hjk : j = k
        · subst hjk
          right
          refine ⟨i, ?_, rfl⟩
          obtain ⟨a, b, e1, e2, e3⟩ := h3
          rw [hg i (by omega)] at e1
          rw [hsh] at e2
          simp only [Option.some.injEq] at e1 e2
          subst e1; subst e2
          simp only [List.mem_filter, decide_eq_true_eq]
          refine ⟨⟨?_, hov _ _ e3⟩, e3⟩
          by_contra hn
          obtain ⟨m, a, b, hm, f1, f2, f3⟩ := p5 i (by omega) hn
          rw [hg i (by omega)] at f1
          simp only [Option.some.injEq] at f1
          subst f1
          have := hsort m j b sh hm f2 hsh
          exact absurd (hov _ _ e3) (not_le.2 (f3.trans_le this))
        · exact Or.inl ⟨h1, by omega, h3⟩
    · simp only
      rw [List.pairwise_append]
      refine ⟨p3.filter _, by simp, ?_⟩
      intro a ha b hb
      simp only [List.mem_singleton] at hb
      subst hb
      exact p4 a (List.mem_filter.1 ha).1
    · simp only
      intro i hi
      rcases List.mem_append.1 hi with h | h
      · have := p4 i (List.mem_filter.1 h).1; omega
      · simp only [List.mem_singleton] at h; omega
    · simp only
      intro i hi hn
      simp only [List.mem_append, List.mem_filter, decide_eq_true_eq, List.mem_singleton, not_or, not_and, not_le] at hn
      by_cases ha : i ∈ active
      · exact ⟨k, g i, sh, by omega, hg i (by omega), hsh, hn.1 ha⟩
      · obtain ⟨m, a, b, h1, h2⟩ := p5 i (by omega) ha
        exact ⟨m, a, b, by omega, h2⟩)
  have h0 := h2.1
  simp only [show 1 + (shapes.length - 1) = shapes.length by omega, List.take_length] at h0
  refine ⟨pairs, active, var', h1, h0, h2.2.1, fun i j => ?_⟩
  rw [h2.2.2.1]
  constructor
  · exact fun h => ⟨h.1, h.2.2⟩
  · intro h
    refine ⟨h.1, ?_, h.2⟩
    obtain ⟨h1, a', b', -, e2, -⟩ := h
    have := (List.getElem?_eq_some_iff.1 e2).1
    omega

/-- C20: for any starting axis, any variance implementation and any intersection test that implies overlap along the sweep
axis, sweep and prune permutes the shapes (sorting them by minimum extent) and returns exactly the pairs `(i, j)`, `i < j`, of
positions in the permuted list whose bounds intersect, each once. The next axis is what the variance implementation computes from
the bounds of this call. -/
theorem c20_sweep_and_prune (O : SapBound B K) (v : VarOps σ B) (bound : A → B) (s : Sap σ) (shapes : List A)
    (hov : O.Overlaps s.sweep_axis) (hax : s.sweep_axis < O.dim) :
    ∃ pairs shapes' s', s.findColliderPairs O v bound shapes = .ok (pairs, shapes', s') ∧
      shapes'.Perm shapes ∧ pairs.Nodup ∧
      shapes'.Pairwise (fun a b => O.minE (bound a) s.sweep_axis ≤ O.minE (bound b) s.sweep_axis) ∧
      (∀ i j, (i, j) ∈ pairs ↔ i < j ∧ Hit bound O.isect shapes' i j) ∧
      (2 ≤ shapes.length → s'.sweep_axis =
        v.axis ((shapes'.map bound).foldl v.addBound (v.clear s.variance)) shapes.length) := by
  unfold Sap.findColliderPairs
  by_cases hlen : shapes.length ≤ 1
  · refine ⟨[], shapes, s, by rw [if_pos hlen], .refl _, by simp, ?_, fun i j => ?_, by omega⟩
    · match shapes, hlen with
      | [], _ => simp
      | [_], _ => simp
    simp only [List.not_mem_nil, false_iff]
    rintro ⟨hij, a, b, -, hb, -⟩
    obtain ⟨hj, -⟩ := List.getElem?_eq_some_iff.1 hb
    omega
  · rw [if_neg hlen, if_neg (not_le.2 hax)]
    have hperm := List.mergeSort_perm shapes (fun a b => sapLe O s.sweep_axis (bound a) (bound b))
    have hs := List.pairwise_mergeSort (le := fun a b => sapLe O s.sweep_axis (bound a) (bound b))
      (fun a b c => sapLe_trans O _ _ _ _) (fun a b => sapLe_total O _ _ _) shapes
    generalize hS : shapes.mergeSort (fun a b => sapLe O s.sweep_axis (bound a) (bound b)) = S at hperm hs
    have hS2 : S.Pairwise (fun a b => O.minE (bound a) s.sweep_axis ≤ O.minE (bound b) s.sweep_axis) := hs.imp (fun {a b} h => sapLe_min O _ _ _ h)
    have hl : 1 < S.length := by rw [hperm.length_eq]; omega
    obtain ⟨f, hf⟩ : ∃ f, S[0]? = some f := ⟨_, List.getElem?_eq_getElem (by omega)⟩
    obtain ⟨pairs, active, var', h1, hv, h2, h3⟩ := sweep_spec O v bound s.sweep_axis hov S (by
      intro i j a b hij ha hb
      obtain ⟨hi, rfl⟩ := List.getElem?_eq_some_iff.1 ha
      obtain ⟨hj, rfl⟩ := List.getElem?_eq_some_iff.1 hb
      exact List.pairwise_iff_getElem.1 hS2 i j hi hj hij) hl (v.clear s.variance) f hf
    refine ⟨pairs, S, ⟨v.axis var' S.length, var'⟩, by simp only [hf, Res.ofOption_some, Res.bind_ok, h1, Res.pure_eq], hperm, ?_, hS2, h3, fun _ => by simp only [hv, hperm.length_eq]⟩
    exact h2.imp (fun {a b} h e => by subst e; simp [colex] at h)

end Verif.BroadPhase
