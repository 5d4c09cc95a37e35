import Verif.Minkowski.Toi
/-!
# Complex shapes (C56): several primitives with local transforms
-/
namespace Verif.Minkowski
open Verif Geom Primitive
set_option linter.unusedSectionVars false

section
variable {PL PR TL TR GL GR UL UR V K : Type} [LinearOrder K]

theorem mem_pairs {concatL : GL → TL → UL} {concatR : GR → TR → UR} {left : List (PL × TL)} {leftT : GL} {right : List (PR × TR)} {rightT : GR}
    {x : (PL × UL) × (PR × UR)} : x ∈ pairs concatL concatR left leftT right rightT ↔
      ∃ l ∈ left, ∃ r ∈ right, x = ((l.1, concatL leftT l.2), (r.1, concatR rightT r.2)) := by
  unfold pairs
  simp only [List.mem_flatMap, List.mem_map]
  constructor
  · rintro ⟨l, hl, r, hr, rfl⟩; exact ⟨l, hl, r, hr, rfl⟩
  · rintro ⟨l, hl, r, hr, rfl⟩; exact ⟨l, hl, r, hr, rfl⟩

theorem collect_full {test : (PL × UL) → (PR × UR) → Res (Option (Contact V K))} :
    ∀ {ps acc o}, collect .fullResolution test ps acc = .ok o →
      ∃ cs, o = .inl (acc ++ cs) ∧ (∀ x ∈ ps, test x.1 x.2 = .ok none ∨ ∃ c ∈ cs, test x.1 x.2 = .ok (some c)) ∧
        (∀ c ∈ cs, ∃ x ∈ ps, test x.1 x.2 = .ok (some c)) := by
  intro ps
  induction ps with
  | nil =>
    intro acc o h
    cases h
    exact ⟨[], by simp, by simp, by simp⟩
  | cons p ps ih =>
    intro acc o h
    obtain ⟨l, r⟩ := p
    unfold collect at h
    rw [Res.bind_eq_ok] at h
    obtain ⟨c, hc, h⟩ := h
    cases c with
    | none =>
      obtain ⟨cs, h1, h2, h3⟩ := ih h
      refine ⟨cs, h1, ?_, ?_⟩
      · intro x hx
        rcases List.mem_cons.mp hx with rfl | hx
        · exact Or.inl hc
        · exact h2 x hx
      · intro c' hc'
        obtain ⟨x, hx, e⟩ := h3 c' hc'
        exact ⟨x, List.mem_cons_of_mem _ hx, e⟩
    | some c =>
      obtain ⟨cs, h1, h2, h3⟩ := ih h
      refine ⟨c :: cs, by rw [h1]; simp, ?_, ?_⟩
      · intro x hx
        rcases List.mem_cons.mp hx with rfl | hx
        · exact Or.inr ⟨c, List.mem_cons_self, hc⟩
        · rcases h2 x hx with h | ⟨c', hc', e⟩
          · exact Or.inl h
          · exact Or.inr ⟨c', List.mem_cons_of_mem _ hc', e⟩
      · intro c' hc'
        rcases List.mem_cons.mp hc' with rfl | hc'
        · exact ⟨_, List.mem_cons_self, hc⟩
        · obtain ⟨x, hx, e⟩ := h3 c' hc'
          exact ⟨x, List.mem_cons_of_mem _ hx, e⟩

theorem collect_only {test : (PL × UL) → (PR × UR) → Res (Option (Contact V K))} :
    ∀ {ps acc o}, collect .collisionOnly test ps acc = .ok o →
      (o = .inl acc ∧ ∀ x ∈ ps, test x.1 x.2 = .ok none) ∨ ∃ c, o = .inr c ∧ ∃ x ∈ ps, test x.1 x.2 = .ok (some c) := by
  intro ps
  induction ps with
  | nil =>
    intro acc o h
    cases h
    exact Or.inl ⟨rfl, by simp⟩
  | cons p ps ih =>
    intro acc o h
    obtain ⟨l, r⟩ := p
    unfold collect at h
    rw [Res.bind_eq_ok] at h
    obtain ⟨c, hc, h⟩ := h
    cases c with
    | none =>
      rcases ih h with ⟨h1, h2⟩ | ⟨c, h1, x, hx, h2⟩
      · refine Or.inl ⟨h1, ?_⟩
        intro x hx
        rcases List.mem_cons.mp hx with rfl | hx
        · exact hc
        · exact h2 x hx
      · exact Or.inr ⟨c, h1, x, List.mem_cons_of_mem _ hx, h2⟩
    | some c =>
      cases h
      exact Or.inr ⟨c, rfl, _, List.mem_cons_self, hc⟩

/-- All pairs are tested, so if no test panics the loop does not either. -/
theorem collect_total {strategy : Strategy} {test : (PL × UL) → (PR × UR) → Res (Option (Contact V K))} :
    ∀ {ps acc}, (∀ x ∈ ps, ∃ o, test x.1 x.2 = .ok o) → ∃ o, collect strategy test ps acc = .ok o := by
  intro ps
  induction ps with
  | nil => intro acc _; exact ⟨_, rfl⟩
  | cons p ps ih =>
    intro acc h
    obtain ⟨l, r⟩ := p
    obtain ⟨c, hc⟩ := h _ List.mem_cons_self
    have ih' := fun a => ih (acc := a) (fun x hx => h x (List.mem_cons_of_mem _ hx))
    unfold collect
    dsimp only at hc
    rw [hc, Res.bind_ok]
    cases c with
    | none => exact ih' _
    | some c => cases strategy with
      | collisionOnly => exact ⟨_, rfl⟩
      | fullResolution => exact ih' _

theorem foldl_max (cs : List (Contact V K)) : ∀ c, (cs.foldl (fun m x => if x.depth < m.depth then m else x) c ∈ c :: cs) ∧
    ∀ x ∈ c :: cs, x.depth ≤ (cs.foldl (fun m x => if x.depth < m.depth then m else x) c).depth := by
  induction cs with
  | nil => intro c; simp
  | cons d cs ih =>
    intro c
    rw [List.foldl_cons]
    obtain ⟨h1, h2⟩ := ih (if d.depth < c.depth then c else d)
    have hle : c.depth ≤ (if d.depth < c.depth then c else d).depth ∧ d.depth ≤ (if d.depth < c.depth then c else d).depth := by
      split
      · rename_i h; exact ⟨le_refl _, h.le⟩
      · rename_i h; exact ⟨not_lt.mp h, le_refl _⟩
    have hm := h2 _ List.mem_cons_self
    constructor
    · rcases List.mem_cons.mp h1 with h | h
      · rw [h]
        split
        · exact List.mem_cons_self
        · exact List.mem_cons_of_mem _ List.mem_cons_self
      · exact List.mem_cons_of_mem _ (List.mem_cons_of_mem _ h)
    · intro x hx
      rcases List.mem_cons.mp hx with rfl | hx
      · exact le_trans hle.1 hm
      · rcases List.mem_cons.mp hx with rfl | hx
        · exact le_trans hle.2 hm
        · exact h2 x (List.mem_cons_of_mem _ hx)

theorem foldl_min (cs : List (Contact V K)) : ∀ c, (cs.foldl (fun m x => if x.toi < m.toi then x else m) c ∈ c :: cs) ∧
    ∀ x ∈ c :: cs, (cs.foldl (fun m x => if x.toi < m.toi then x else m) c).toi ≤ x.toi := by
  induction cs with
  | nil => intro c; simp
  | cons d cs ih =>
    intro c
    rw [List.foldl_cons]
    obtain ⟨h1, h2⟩ := ih (if d.toi < c.toi then d else c)
    have hle : (if d.toi < c.toi then d else c).toi ≤ c.toi ∧ (if d.toi < c.toi then d else c).toi ≤ d.toi := by
      split
      · rename_i h; exact ⟨h.le, le_refl _⟩
      · rename_i h; exact ⟨le_refl _, not_lt.mp h⟩
    have hm := h2 _ List.mem_cons_self
    constructor
    · rcases List.mem_cons.mp h1 with h | h
      · rw [h]
        split
        · exact List.mem_cons_of_mem _ List.mem_cons_self
        · exact List.mem_cons_self
      · exact List.mem_cons_of_mem _ (List.mem_cons_of_mem _ h)
    · intro x hx
      rcases List.mem_cons.mp hx with rfl | hx
      · exact le_trans hm hle.1
      · rcases List.mem_cons.mp hx with rfl | hx
        · exact le_trans hm hle.2
        · exact h2 x (List.mem_cons_of_mem _ hx)

section
variable {concatL : GL → TL → UL} {concatR : GR → TR → UR} {left : List (PL × TL)} {leftT : GL} {right : List (PR × TR)} {rightT : GR}

/-- C56, full resolution: no contact exactly if no pair of primitives collides, else the contact of a pair, of largest penetration depth. -/
theorem c56_full {test : Strategy → (PL × UL) → (PR × UR) → Res (Option (Contact V K))} {o : Option (Contact V K)}
    (h : intersectionComplex concatL concatR test .fullResolution left leftT right rightT = .ok o) :
    (o = none ↔ ∀ l ∈ left, ∀ r ∈ right, test .fullResolution (l.1, concatL leftT l.2) (r.1, concatR rightT r.2) = .ok none) ∧
    ∀ c, o = some c →
      (∃ l ∈ left, ∃ r ∈ right, test .fullResolution (l.1, concatL leftT l.2) (r.1, concatR rightT r.2) = .ok (some c)) ∧
      ∀ l ∈ left, ∀ r ∈ right, ∀ c', test .fullResolution (l.1, concatL leftT l.2) (r.1, concatR rightT r.2) = .ok (some c') → c'.depth ≤ c.depth := by
  unfold intersectionComplex at h
  rw [Res.bind_eq_ok] at h
  obtain ⟨s, hs, h⟩ := h
  obtain ⟨cs, rfl, h2, h3⟩ := collect_full hs
  cases h
  cases cs with
  | nil =>
    refine ⟨⟨fun _ l hl r hr => ?_, fun _ => rfl⟩, nofun⟩
    rcases h2 _ (mem_pairs.mpr ⟨l, hl, r, hr, rfl⟩) with h | ⟨c, hc, _⟩
    · exact h
    · simp at hc
  | cons c0 cs =>
    simp only [List.nil_append, maxByDepth]
    obtain ⟨k1, k2⟩ := foldl_max cs c0
    refine ⟨⟨nofun, fun hn => ?_⟩, ?_⟩
    · obtain ⟨x, hx, e⟩ := h3 c0 List.mem_cons_self
      obtain ⟨l, hl, r, hr, rfl⟩ := mem_pairs.mp hx
      rw [hn l hl r hr] at e
      cases e
    · rintro _ ⟨⟩
      constructor
      · obtain ⟨x, hx, e⟩ := h3 _ k1
        obtain ⟨l, hl, r, hr, rfl⟩ := mem_pairs.mp hx
        exact ⟨l, hl, r, hr, e⟩
      · intro l hl r hr c' hc'
        rcases h2 _ (mem_pairs.mpr ⟨l, hl, r, hr, rfl⟩) with h | ⟨c, hc, e⟩
        · rw [hc'] at h; cases h
        · rw [hc'] at e
          cases e
          exact k2 _ hc

/-- C56, collision only: `Some` exactly if some pair of primitives collides. -/
theorem c56_only {test : Strategy → (PL × UL) → (PR × UR) → Res (Option (Contact V K))} {o : Option (Contact V K)}
    (h : intersectionComplex concatL concatR test .collisionOnly left leftT right rightT = .ok o) :
    (o = none ↔ ∀ l ∈ left, ∀ r ∈ right, test .collisionOnly (l.1, concatL leftT l.2) (r.1, concatR rightT r.2) = .ok none) ∧
    ∀ c, o = some c → ∃ l ∈ left, ∃ r ∈ right, test .collisionOnly (l.1, concatL leftT l.2) (r.1, concatR rightT r.2) = .ok (some c) := by
  unfold intersectionComplex at h
  rw [Res.bind_eq_ok] at h
  obtain ⟨s, hs, h⟩ := h
  rcases collect_only hs with ⟨rfl, h2⟩ | ⟨c, rfl, x, hx, e⟩
  · cases h
    exact ⟨⟨fun _ l hl r hr => h2 _ (mem_pairs.mpr ⟨l, hl, r, hr, rfl⟩), fun _ => rfl⟩, nofun⟩
  · cases h
    obtain ⟨l, hl, r, hr, rfl⟩ := mem_pairs.mp hx
    refine ⟨⟨nofun, fun hn => ?_⟩, ?_⟩
    · rw [hn l hl r hr] at e; cases e
    · rintro _ ⟨⟩; exact ⟨l, hl, r, hr, e⟩

/-- C56: a panic can only come from a pair of primitives. -/
theorem c56_total {test : Strategy → (PL × UL) → (PR × UR) → Res (Option (Contact V K))} (strategy : Strategy)
    (h : ∀ l ∈ left, ∀ r ∈ right, ∃ o, test strategy (l.1, concatL leftT l.2) (r.1, concatR rightT r.2) = .ok o) :
    ∃ o, intersectionComplex concatL concatR test strategy left leftT right rightT = .ok o := by
  obtain ⟨s, hs⟩ := collect_total (strategy := strategy) (test := test strategy) (acc := []) (ps := pairs concatL concatR left leftT right rightT) (by
    intro x hx
    obtain ⟨l, hl, r, hr, rfl⟩ := mem_pairs.mp hx
    exact h l hl r hr)
  unfold intersectionComplex
  rw [hs, Res.bind_ok]
  cases s <;> exact ⟨_, rfl⟩

/-- C56, time of impact, full resolution: the earliest contact of all pairs. -/
theorem c56_toi {test : (PL × UL) → (PR × UR) → Res (Option (Contact V K))} {o : Option (Contact V K)}
    (h : toiComplex concatL concatR test .fullResolution left leftT right rightT = .ok o) :
    (o = none ↔ ∀ l ∈ left, ∀ r ∈ right, test (l.1, concatL leftT l.2) (r.1, concatR rightT r.2) = .ok none) ∧
    ∀ c, o = some c →
      (∃ l ∈ left, ∃ r ∈ right, test (l.1, concatL leftT l.2) (r.1, concatR rightT r.2) = .ok (some c)) ∧
      ∀ l ∈ left, ∀ r ∈ right, ∀ c', test (l.1, concatL leftT l.2) (r.1, concatR rightT r.2) = .ok (some c') → c.toi ≤ c'.toi := by
  unfold toiComplex at h
  rw [Res.bind_eq_ok] at h
  obtain ⟨s, hs, h⟩ := h
  obtain ⟨cs, rfl, h2, h3⟩ := collect_full hs
  cases h
  cases cs with
  | nil =>
    refine ⟨⟨fun _ l hl r hr => ?_, fun _ => rfl⟩, nofun⟩
    rcases h2 _ (mem_pairs.mpr ⟨l, hl, r, hr, rfl⟩) with h | ⟨c, hc, _⟩
    · exact h
    · simp at hc
  | cons c0 cs =>
    simp only [List.nil_append, minByToi]
    obtain ⟨k1, k2⟩ := foldl_min cs c0
    refine ⟨⟨nofun, fun hn => ?_⟩, ?_⟩
    · obtain ⟨x, hx, e⟩ := h3 c0 List.mem_cons_self
      obtain ⟨l, hl, r, hr, rfl⟩ := mem_pairs.mp hx
      rw [hn l hl r hr] at e
      cases e
    · rintro _ ⟨⟩
      constructor
      · obtain ⟨x, hx, e⟩ := h3 _ k1
        obtain ⟨l, hl, r, hr, rfl⟩ := mem_pairs.mp hx
        exact ⟨l, hl, r, hr, e⟩
      · intro l hl r hr c' hc'
        rcases h2 _ (mem_pairs.mpr ⟨l, hl, r, hr, rfl⟩) with h | ⟨c, hc, e⟩
        · rw [hc'] at h; cases h
        · rw [hc'] at e
          cases e
          exact k2 _ hc

/-- C56, time of impact, collision only: `Some` exactly if some pair collides; the time is that of a pair, marked as boolean result. -/
theorem c56_toi_only {test : (PL × UL) → (PR × UR) → Res (Option (Contact V K))} {o : Option (Contact V K)}
    (h : toiComplex concatL concatR test .collisionOnly left leftT right rightT = .ok o) :
    (o = none ↔ ∀ l ∈ left, ∀ r ∈ right, test (l.1, concatL leftT l.2) (r.1, concatR rightT r.2) = .ok none) ∧
    ∀ c, o = some c → c.strategy = .collisionOnly ∧
      ∃ l ∈ left, ∃ r ∈ right, ∃ c', test (l.1, concatL leftT l.2) (r.1, concatR rightT r.2) = .ok (some c') ∧ c.toi = c'.toi := by
  unfold toiComplex at h
  rw [Res.bind_eq_ok] at h
  obtain ⟨s, hs, h⟩ := h
  rcases collect_only hs with ⟨rfl, h2⟩ | ⟨c, rfl, x, hx, e⟩
  · cases h
    exact ⟨⟨fun _ l hl r hr => h2 _ (mem_pairs.mpr ⟨l, hl, r, hr, rfl⟩), fun _ => rfl⟩, nofun⟩
  · cases h
    obtain ⟨l, hl, r, hr, rfl⟩ := mem_pairs.mp hx
    refine ⟨⟨nofun, fun hn => ?_⟩, ?_⟩
    · rw [hn l hl r hr] at e; cases e
    · rintro _ ⟨⟩; exact ⟨rfl, l, hl, r, hr, c, e, rfl⟩

theorem distanceLoopC {dist : (PL × UL) → (PR × UR) → Res (Option K)} : ∀ {ps m o}, distanceComplexLoop dist ps m = .ok o →
    (∀ d, o = some d → (∀ x ∈ ps, ∃ d', dist x.1 x.2 = .ok (some d') ∧ d ≤ d') ∧ (∀ d', m = some d' → d ≤ d') ∧
      (m = some d ∨ ∃ x ∈ ps, dist x.1 x.2 = .ok (some d))) ∧
    (o = none → (ps = [] ∧ m = none) ∨ ∃ x ∈ ps, dist x.1 x.2 = .ok none) := by
  intro ps
  induction ps with
  | nil =>
    intro m o h
    cases h
    refine ⟨?_, fun h => Or.inl ⟨rfl, h⟩⟩
    rintro d rfl
    refine ⟨by simp, ?_, Or.inl rfl⟩
    rintro d' ⟨⟩
    exact le_refl _
  | cons p ps ih =>
    intro m o h
    obtain ⟨l, r⟩ := p
    unfold distanceComplexLoop at h
    rw [Res.bind_eq_ok] at h
    obtain ⟨c, hc, h⟩ := h
    cases c with
    | none =>
      cases h
      exact ⟨nofun, fun _ => Or.inr ⟨_, List.mem_cons_self, hc⟩⟩
    | some e =>
      obtain ⟨h1, h2⟩ := ih h
      constructor
      · intro d hd
        obtain ⟨k1, k2, k3⟩ := h1 d hd
        have k2' := k2 _ rfl
        refine ⟨?_, ?_, ?_⟩
        · intro x hx
          rcases List.mem_cons.mp hx with rfl | hx
          · refine ⟨e, hc, le_trans k2' ?_⟩
            cases m with
            | none => exact le_refl _
            | some m => exact min_le_left _ _
          · exact k1 x hx
        · rintro d' rfl
          exact le_trans k2' (min_le_right _ _)
        · rcases k3 with k3 | ⟨x, hx, k3⟩
          · have k3 := Option.some.inj k3
            cases m with
            | none =>
              refine Or.inr ⟨_, List.mem_cons_self, ?_⟩
              rw [hc]; exact congrArg (fun z => Res.ok (some z)) k3
            | some m =>
              rcases min_choice e m with hm | hm
              · refine Or.inr ⟨_, List.mem_cons_self, ?_⟩
                rw [hc]
                have : e = d := hm.symm.trans k3
                rw [this]
              · have : m = d := hm.symm.trans k3
                rw [this]; exact Or.inl rfl
          · exact Or.inr ⟨x, List.mem_cons_of_mem _ hx, k3⟩
      · intro hn
        rcases h2 hn with ⟨_, h⟩ | ⟨x, hx, h⟩
        · cases h
        · exact Or.inr ⟨x, List.mem_cons_of_mem _ hx, h⟩

/-- C56, distance: the minimum of the distances of the pairs, all of which are `Some`; `None` exactly if a pair has none or there is no pair. -/
theorem c56_distance {dist : (PL × UL) → (PR × UR) → Res (Option K)} {o : Option K}
    (h : distanceComplex concatL concatR dist left leftT right rightT = .ok o) :
    (∀ d, o = some d → (∃ l ∈ left, ∃ r ∈ right, dist (l.1, concatL leftT l.2) (r.1, concatR rightT r.2) = .ok (some d)) ∧
      ∀ l ∈ left, ∀ r ∈ right, ∃ d', dist (l.1, concatL leftT l.2) (r.1, concatR rightT r.2) = .ok (some d') ∧ d ≤ d') ∧
    (o = none ↔ left = [] ∨ right = [] ∨ ∃ l ∈ left, ∃ r ∈ right, dist (l.1, concatL leftT l.2) (r.1, concatR rightT r.2) = .ok none) := by
  obtain ⟨h1, h2⟩ := distanceLoopC h
  constructor
  · intro d hd
    obtain ⟨k1, _, k3⟩ := h1 d hd
    constructor
    · rcases k3 with k3 | ⟨x, hx, e⟩
      · cases k3
      · obtain ⟨l, hl, r, hr, rfl⟩ := mem_pairs.mp hx
        exact ⟨l, hl, r, hr, e⟩
    · intro l hl r hr
      exact k1 _ (mem_pairs.mpr ⟨l, hl, r, hr, rfl⟩)
  · constructor
    · intro hn
      rcases h2 hn with ⟨hp, _⟩ | ⟨x, hx, e⟩
      · cases left with
        | nil => exact Or.inl rfl
        | cons l ls =>
          cases right with
          | nil => exact Or.inr (Or.inl rfl)
          | cons r rs =>
            exfalso
            have : ((l.1, concatL leftT l.2), (r.1, concatR rightT r.2)) ∈ pairs concatL concatR (l :: ls) leftT (r :: rs) rightT :=
              mem_pairs.mpr ⟨l, List.mem_cons_self, r, List.mem_cons_self, rfl⟩
            rw [hp] at this
            simp at this
      · obtain ⟨l, hl, r, hr, rfl⟩ := mem_pairs.mp hx
        exact Or.inr (Or.inr ⟨l, hl, r, hr, e⟩)
    · intro hc
      cases o with
      | none => rfl
      | some d =>
        exfalso
        obtain ⟨k1, _, k3⟩ := h1 d rfl
        rcases hc with rfl | rfl | ⟨l, hl, r, hr, e⟩
        · rcases k3 with k3 | ⟨x, hx, _⟩
          · cases k3
          · obtain ⟨l, hl, _⟩ := mem_pairs.mp hx
            simp at hl
        · rcases k3 with k3 | ⟨x, hx, _⟩
          · cases k3
          · obtain ⟨l, hl, r, hr, _⟩ := mem_pairs.mp hx
            simp at hr
        · obtain ⟨d', h', _⟩ := k1 _ (mem_pairs.mpr ⟨l, hl, r, hr, rfl⟩)
          rw [e] at h'
          cases h'
end

/-- The hypotheses are met: two left and two right primitives, contacts of depth 1, 3, 3 and none. -/
example : ∃ c : Contact Nat Nat, intersectionComplex (fun (_ : Nat) (t : Nat) => t) (fun (_ : Nat) (t : Nat) => t)
    (fun _ (l r : Nat × Nat) => if l.1 + r.1 = 0 then .ok none else .ok (some ⟨.fullResolution, 10 * l.1 + r.1, if l.1 = 0 then 1 else 3, 0, 0⟩))
    .fullResolution [(0, 0), (1, 0)] 0 [(0, 0), (1, 0)] 0 = .ok (some c) ∧ c.depth = 3 ∧ c.normal = 11 := ⟨_, rfl, rfl, rfl⟩
example : distanceComplex (fun (_ : Nat) (t : Nat) => t) (fun (_ : Nat) (t : Nat) => t) (fun (l r : Nat × Nat) => .ok (some (l.1 + r.1)))
    [(4, 0), (1, 0)] 0 [(2, 0), (3, 0)] 0 = .ok (some 3) := by decide
end

/-! ## End to end: compound shapes of library primitives -/
noncomputable section
open Classical

/-- `Decomposed::concat` (cgmath) in 2D; the product of rotations is given by its action. -/
def Dec2.concat (D E : Dec2 ℝ) : Dec2 ℝ := ⟨D.scale * E.scale, ⟨D.rot.apply E.rot.c0, D.rot.apply E.rot.c1⟩, D.tr.point E.disp⟩
/-- `Decomposed::concat` (cgmath) in 3D -/
def Dec3.concat (D E : Dec3 ℝ) : Dec3 ℝ := ⟨D.scale * E.scale, ⟨D.rot.apply E.rot.c0, D.rot.apply E.rot.c1, D.rot.apply E.rot.c2⟩, D.tr.point E.disp⟩

/-- Specification: the points of a compound shape, a list of primitives with local transforms, moved by `D`. -/
def Compound2 (shape : List (Prim2 × Dec2 ℝ)) (D : Dec2 ℝ) (x : V2 ℝ) : Prop :=
  ∃ s ∈ shape, ∃ p, s.1.Points p ∧ x = D.tr.point (s.2.tr.point p)
/-- Specification: the points of a compound shape, a list of primitives with local transforms, moved by `D`. -/
def Compound3 (shape : List (Prim3 × Dec3 ℝ)) (D : Dec3 ℝ) (x : V3 ℝ) : Prop :=
  ∃ s ∈ shape, ∃ p, s.1.Points p ∧ x = D.tr.point (s.2.tr.point p)

theorem concat_point2 (D E : Dec2 ℝ) (p : V2 ℝ) : (Dec2.concat D E).tr.point p = D.tr.point (E.tr.point p) := by
  simp only [Dec2.concat, Dec2.tr, M2.apply]
  ext <;> simp <;> ring
theorem concat_point3 (D E : Dec3 ℝ) (p : V3 ℝ) : (Dec3.concat D E).tr.point p = D.tr.point (E.tr.point p) := by
  simp only [Dec3.concat, Dec3.tr, M3.apply]
  ext <;> simp <;> ring
theorem concat_orth2 {D E : Dec2 ℝ} (hD : D.rot.Orthogonal) (hE : E.rot.Orthogonal) : (Dec2.concat D E).rot.Orthogonal := by
  obtain ⟨a, b, c⟩ := hD
  obtain ⟨d, e, f⟩ := hE
  simp only [Dec2.concat, M2.Orthogonal, M2.apply, V2.dot, V2.add_x, V2.add_y, V2.mul_x, V2.mul_y] at *
  refine ⟨?_, ?_, ?_⟩
  · linear_combination E.rot.c0.x ^ 2 * a + E.rot.c0.y ^ 2 * b + 2 * E.rot.c0.x * E.rot.c0.y * c + d
  · linear_combination E.rot.c1.x ^ 2 * a + E.rot.c1.y ^ 2 * b + 2 * E.rot.c1.x * E.rot.c1.y * c + e
  · linear_combination E.rot.c0.x * E.rot.c1.x * a + E.rot.c0.y * E.rot.c1.y * b + (E.rot.c0.x * E.rot.c1.y + E.rot.c0.y * E.rot.c1.x) * c + f

theorem compound_image2 {shape : List (Prim2 × Dec2 ℝ)} {D : Dec2 ℝ} {x : V2 ℝ} :
    Compound2 shape D x ↔ ∃ s ∈ shape, Image (Dec2.concat D s.2).tr s.1.Points x := by
  constructor
  · rintro ⟨s, hs, p, hp, rfl⟩; exact ⟨s, hs, p, hp, (concat_point2 _ _ _).symm⟩
  · rintro ⟨s, hs, p, hp, rfl⟩; exact ⟨s, hs, p, hp, concat_point2 _ _ _⟩

/-- The primitives and local transforms of a compound shape are usable: sizes as the constructors make them, rotations, non-zero scales. -/
def CompoundOk2 (shape : List (Prim2 × Dec2 ℝ)) : Prop := ∀ s ∈ shape, s.1.Ok ∧ s.2.rot.Orthogonal ∧ s.2.scale ≠ 0

/-- C56 end to end, distance of 2D compound shapes: attained by points of the shapes, and no two points are closer than the tolerance allows. -/
theorem c56_distance_prim2 (left right : List (Prim2 × Dec2 ℝ)) (hl : CompoundOk2 left) (hr : CompoundOk2 right) (D E : Dec2 ℝ) (hD : D.rot.Orthogonal)
    (hE : E.rot.Orthogonal) (hDs : D.scale ≠ 0) (hEs : E.scale ≠ 0) {tolerance : ℝ} (htol : 0 ≤ tolerance) (maxIterations : Nat) {δ : ℝ}
    {nan : (Prim2 × Dec2 ℝ) → (Prim2 × Dec2 ℝ) → Res (SP (V2 ℝ))} (hn : ∀ s t p, nan s t = .ok p → FromShapes2 (Image s.2.tr s.1.Points) (Image t.2.tr t.1.Points) p)
    (h : distanceComplex Dec2.concat Dec2.concat
      (fun s t => gjkDistance closest2 tolerance maxIterations (s.1.supportPoint s.2.tr) (t.1.supportPoint t.2.tr) (nan s t) (s.2.tr.point 0) (t.2.tr.point 0))
      left D right E = .ok (some δ)) :
    0 < δ ∧ (∃ x y, Compound2 left D x ∧ Compound2 right E y ∧ (x - y).norm = δ) ∧
      ∀ x y, Compound2 left D x → Compound2 right E y → δ - tolerance / δ < (x - y).norm := by
  obtain ⟨h1, _⟩ := c56_distance h
  obtain ⟨⟨l, hl', r, hr', e⟩, h2⟩ := h1 δ rfl
  have key : ∀ l ∈ left, ∀ r ∈ right, ∀ {d : ℝ}, _ → _ := fun l hl' r hr' {d} e =>
    c54_prim2 l.1 r.1 (hl l hl').1 (hr r hr').1 (Dec2.concat D l.2) (Dec2.concat E r.2) (concat_orth2 hD (hl l hl').2.1) (concat_orth2 hE (hr r hr').2.1)
      (mul_ne_zero hDs (hl l hl').2.2) (mul_ne_zero hEs (hr r hr').2.2) (hn (l.1, Dec2.concat D l.2) (r.1, Dec2.concat E r.2)) tolerance maxIterations (δ := d) e
  obtain ⟨k1, ⟨x, y, hx, hy, k2⟩, _⟩ := key l hl' r hr' e
  refine ⟨k1, ⟨x, y, compound_image2.mpr ⟨l, hl', hx⟩, compound_image2.mpr ⟨r, hr', hy⟩, k2⟩, ?_⟩
  intro x y hx hy
  obtain ⟨l', hl'', hx'⟩ := compound_image2.mp hx
  obtain ⟨r', hr'', hy'⟩ := compound_image2.mp hy
  obtain ⟨d', e', hle⟩ := h2 l' hl'' r' hr''
  obtain ⟨g1, _, g2⟩ := key l' hl'' r' hr'' e'
  have := g2 x y hx' hy'
  have hdiv : tolerance / d' ≤ tolerance / δ := div_le_div_of_nonneg_left htol k1 hle
  linarith

/-- C56 end to end: in `CollisionOnly` mode, for compound shapes of particles, lines, rectangles, squares and polygons of at most nine vertices in 2D, the answer is exact: `Some`
only if the compound shapes share a point, `None` only if each pair of primitives is separated by a line. -/
theorem c56_intersect_prim2 (left right : List (Prim2 × Dec2 ℝ)) (hl : CompoundOk2 left) (hr : CompoundOk2 right) (hlc : ∀ s ∈ left, ∀ c, s.1 ≠ .circle c)
    (hrc : ∀ s ∈ right, ∀ c, s.1 ≠ .circle c) (D E : Dec2 ℝ) (hD : D.rot.Orthogonal)
    (hE : E.rot.Orthogonal) (hDs : D.scale ≠ 0) (hEs : E.scale ≠ 0)
    (epa : (Prim2 × Dec2 ℝ) → (Prim2 × Dec2 ℝ) → List (SP (V2 ℝ)) → Res (Option (Contact (V2 ℝ) ℝ))) :
    ∃ o, intersectionComplex Dec2.concat Dec2.concat
      (fun strategy s t => gjkIntersection reduce2 100 (epa s t) strategy (s.1.supportPoint s.2.tr) (t.1.supportPoint t.2.tr) (s.2.tr.point 0) (t.2.tr.point 0))
      .collisionOnly left D right E = .ok o ∧
      (o.isSome → ∃ x, Compound2 left D x ∧ Compound2 right E x) ∧
      (o = none → ∀ l ∈ left, ∀ r ∈ right, Separated2 (Image (Dec2.concat D l.2).tr l.1.Points) (Image (Dec2.concat E r.2).tr r.1.Points)) := by
  have key : ∀ l ∈ left, ∀ r ∈ right, ∃ o, gjkIntersection reduce2 100 (epa (l.1, Dec2.concat D l.2) (r.1, Dec2.concat E r.2)) .collisionOnly
      (l.1.supportPoint (Dec2.concat D l.2).tr) (r.1.supportPoint (Dec2.concat E r.2).tr) ((Dec2.concat D l.2).tr.point 0) ((Dec2.concat E r.2).tr.point 0) = .ok o ∧
      (o.isSome → ∃ p, Image (Dec2.concat D l.2).tr l.1.Points p ∧ Image (Dec2.concat E r.2).tr r.1.Points p) ∧
      (o = none → Separated2 (Image (Dec2.concat D l.2).tr l.1.Points) (Image (Dec2.concat E r.2).tr r.1.Points)) := by
    intro l hl' r hr'
    obtain ⟨o, h1, h2, h3⟩ := c65_prim2 l.1 r.1 (hl l hl').1 (hr r hr').1 (hlc l hl') (hrc r hr') (Dec2.concat D l.2) (Dec2.concat E r.2)
      (concat_orth2 hD (hl l hl').2.1) (concat_orth2 hE (hr r hr').2.1) (mul_ne_zero hDs (hl l hl').2.2) (mul_ne_zero hEs (hr r hr').2.2)
    unfold gjkIntersection
    have h1' : ∀ (inst : DecidableEq (V2 ℝ)), @gjkIntersect (V2 ℝ) ℝ _ _ _ inst _ _ _ reduce2 100 (l.1.supportPoint (Dec2.concat D l.2).tr)
        (r.1.supportPoint (Dec2.concat E r.2).tr) ((Dec2.concat D l.2).tr.point 0) ((Dec2.concat E r.2).tr.point 0) = .ok o := by
      intro inst; rw [← h1]; congr; exact Subsingleton.elim _ _
    rw [h1', Res.bind_ok]
    cases o with
    | none => exact ⟨none, rfl, nofun, fun _ => h3 rfl⟩
    | some x => exact ⟨_, rfl, fun _ => h2 rfl, nofun⟩
  obtain ⟨o, ho⟩ := c56_total (concatL := Dec2.concat) (concatR := Dec2.concat) (left := left) (right := right) (leftT := D) (rightT := E) (K := ℝ) (V := V2 ℝ)
    (test := fun strategy s t => gjkIntersection reduce2 100 (epa s t) strategy (s.1.supportPoint s.2.tr) (t.1.supportPoint t.2.tr) (s.2.tr.point 0) (t.2.tr.point 0))
    .collisionOnly (fun l hl' r hr' => (key l hl' r hr').imp fun _ h => h.1)
  refine ⟨o, ho, ?_⟩
  obtain ⟨k1, k2⟩ := c56_only ho
  constructor
  · intro hs
    obtain ⟨c, rfl⟩ := Option.isSome_iff_exists.mp hs
    obtain ⟨l, hl', r, hr', e⟩ := k2 c rfl
    obtain ⟨o', h1, h2, _⟩ := key l hl' r hr'
    rw [e] at h1
    cases h1
    obtain ⟨p, hp, hq⟩ := h2 rfl
    exact ⟨p, compound_image2.mpr ⟨l, hl', hp⟩, compound_image2.mpr ⟨r, hr', hq⟩⟩
  · intro hn l hl' r hr'
    obtain ⟨o', h1, _, h3⟩ := key l hl' r hr'
    have := k1.mp hn l hl' r hr'
    rw [h1] at this
    cases this
    exact h3 rfl

theorem concat_glide2 {D D' : Dec2 ℝ} (hr : D'.rot = D.rot) (hs : D'.scale = D.scale) (L : Dec2 ℝ) (t : ℝ) :
    Dec2.glide (Dec2.concat D L) (Dec2.concat D' L) t = Dec2.concat (Dec2.glide D D' t) L := by
  simp only [Dec2.glide, Dec2.concat, Dec2.tr, hr, hs]
  congr 1
  ext <;> simp <;> ring

/-- C56 end to end, time of impact of 2D compound shapes that translate without turning: `None` only if they never meet, else no meeting before the time reported, and at that
time two points of the shapes are as close as the reported depth, at most the square root of the tolerance. -/
theorem c56_toi_prim2 (left right : List (Prim2 × Dec2 ℝ)) (hl : CompoundOk2 left) (hr : CompoundOk2 right) (D D' E E' : Dec2 ℝ) (hD : D.rot.Orthogonal)
    (hE : E.rot.Orthogonal) (hDs : D.scale ≠ 0) (hEs : E.scale ≠ 0) (hDr : D'.rot = D.rot) (hDsc : D'.scale = D.scale) (hEr : E'.rot = E.rot) (hEsc : E'.scale = E.scale)
    {tolerance : ℝ} (htol : 0 ≤ tolerance) (fuel : Nat) {o : Option (Contact (V2 ℝ) ℝ)}
    (h : toiComplex (fun (G : Dec2 ℝ × Dec2 ℝ) L => (Dec2.concat G.1 L, Dec2.concat G.2 L)) (fun (G : Dec2 ℝ × Dec2 ℝ) L => (Dec2.concat G.1 L, Dec2.concat G.2 L))
      (fun s t => gjkToi closest2 V2.normalize tolerance fuel (s.1.supportPoint s.2.1.tr) (t.1.supportPoint t.2.1.tr) (s.2.1.tr.point 0) (s.2.2.tr.point 0)
        (t.2.1.tr.point 0) (t.2.2.tr.point 0) (fun u => (Dec2.translationInterpolate t.2.1 t.2.2 u).tr.point))
      .fullResolution left (D, D') right (E, E') = .ok o) :
    (o = none → ∀ t, 0 ≤ t → t ≤ 1 → ¬ ∃ z, Compound2 left (Dec2.glide D D' t) z ∧ Compound2 right (Dec2.glide E E' t) z) ∧
    ∀ c, o = some c → 0 ≤ c.toi ∧ c.toi ≤ 1 ∧
      (∀ t, 0 ≤ t → t < c.toi → ¬ ∃ z, Compound2 left (Dec2.glide D D' t) z ∧ Compound2 right (Dec2.glide E E' t) z) ∧
      c.depth * c.depth ≤ tolerance ∧
      ∃ x y, Compound2 left (Dec2.glide D D' c.toi) x ∧ Compound2 right (Dec2.glide E E' c.toi) y ∧ (x - y).norm = c.depth := by
  have key : ∀ l ∈ left, ∀ r ∈ right, ∀ {o : Option (Contact (V2 ℝ) ℝ)}, _ → _ := fun l hl' r hr' {o} e =>
    c66_prim2 l.1 r.1 (hl l hl').1 (hr r hr').1 (Dec2.concat D l.2) (Dec2.concat D' l.2) (Dec2.concat E r.2) (Dec2.concat E' r.2)
      (concat_orth2 hD (hl l hl').2.1) (concat_orth2 hE (hr r hr').2.1) (mul_ne_zero hDs (hl l hl').2.2) (mul_ne_zero hEs (hr r hr').2.2) htol fuel (r := o) e
  obtain ⟨k1, k2⟩ := c56_toi h
  constructor
  · rintro hn t t0 t1 ⟨z, hz1, hz2⟩
    obtain ⟨l, hl', hx⟩ := compound_image2.mp hz1
    obtain ⟨r, hr', hy⟩ := compound_image2.mp hz2
    have := (key l hl' r hr' (k1.mp hn l hl' r hr')).1 rfl t t0 t1
    apply this
    rw [concat_glide2 hDr hDsc, concat_glide2 hEr hEsc]
    exact ⟨z, hx, hy⟩
  · intro c hc
    obtain ⟨⟨l, hl', r, hr', e⟩, hmin⟩ := k2 c hc
    obtain ⟨g1, g2, g3, g4, g5, _⟩ := (key l hl' r hr' e).2 c rfl
    refine ⟨g1, g2, ?_, g4, ?_⟩
    · rintro t t0 t1 ⟨z, hz1, hz2⟩
      obtain ⟨l', hl'', hx⟩ := compound_image2.mp hz1
      obtain ⟨r', hr'', hy⟩ := compound_image2.mp hz2
      have hall : ∃ o', gjkToi closest2 V2.normalize tolerance fuel (l'.1.supportPoint (Dec2.concat D l'.2).tr) (r'.1.supportPoint (Dec2.concat E r'.2).tr)
          ((Dec2.concat D l'.2).tr.point 0) ((Dec2.concat D' l'.2).tr.point 0) ((Dec2.concat E r'.2).tr.point 0) ((Dec2.concat E' r'.2).tr.point 0)
          (fun u => (Dec2.translationInterpolate (Dec2.concat E r'.2) (Dec2.concat E' r'.2) u).tr.point) = .ok o' := by
        unfold toiComplex at h
        rw [Res.bind_eq_ok] at h
        obtain ⟨s, hs, h⟩ := h
        obtain ⟨cs, _, h2, _⟩ := collect_full hs
        rcases h2 _ (mem_pairs.mpr ⟨l', hl'', r', hr'', rfl⟩) with h2 | ⟨c', _, h2⟩
        · exact ⟨_, h2⟩
        · exact ⟨_, h2⟩
      obtain ⟨o', ho'⟩ := hall
      have hz : ∃ z, Image (Dec2.glide (Dec2.concat D l'.2) (Dec2.concat D' l'.2) t).tr l'.1.Points z ∧
          Image (Dec2.glide (Dec2.concat E r'.2) (Dec2.concat E' r'.2) t).tr r'.1.Points z := by
        rw [concat_glide2 hDr hDsc, concat_glide2 hEr hEsc]
        exact ⟨z, hx, hy⟩
      obtain ⟨m1, m2⟩ := key l' hl'' r' hr'' ho'
      cases o' with
      | none => exact m1 rfl t t0 (by linarith) hz
      | some c' =>
        have := hmin l' hl'' r' hr'' c' ho'
        exact (m2 c' rfl).2.2.1 t t0 (by linarith) hz
    · obtain ⟨x, y, hx, hy, hd⟩ := g5
      rw [concat_glide2 hDr hDsc] at hx
      rw [concat_glide2 hEr hEsc] at hy
      exact ⟨x, y, compound_image2.mpr ⟨l, hl', hx⟩, compound_image2.mpr ⟨r, hr', hy⟩, hd⟩

/-- Usable compound shapes exist: a rectangle and a circle beside it. -/
example : CompoundOk2 [(.rectangle (Rectangle.new 2 1), at2 0), (.circle ⟨1⟩, at2 ⟨3, 0⟩)] := by
  intro s hs
  simp only [List.mem_cons, List.not_mem_nil, or_false] at hs
  rcases hs with rfl | rfl
  · exact ⟨⟨2, 1, by norm_num, by norm_num, rfl⟩, by simp [at2, M2.Orthogonal, V2.dot], by simp [at2]⟩
  · exact ⟨by simp [Prim2.Ok], by simp [at2, M2.Orthogonal, V2.dot], by simp [at2]⟩
end
end Verif.Minkowski
