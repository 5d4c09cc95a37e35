import Verif.Dbvt.HistoryProof
/-!
# Properties C01 - C14 of the dynamic bounding volume tree

Every theorem ranges over all implementations `O` of the trait methods (no law unless stated), all
histories of calls, and all random streams.  The vocabulary (`Exec`, `mapOf`, `pending`, `Stale`,
`Disciplined`) is in `Verif/Dbvt/History.lean`.
-/
namespace Verif.Dbvt
open Verif

variable {V B S σ R : Type}

/-! ## A concrete instance, used only to show that hypotheses are satisfiable -/

/-- Closed integer intervals with a margin of one. -/
def demo : Ops (Int × Int) (Int × Int) Int where
  bound v := v
  fat v := (v.1 - 1, v.2 + 1)
  union a b := (min a.1 b.1, max a.2 b.2)
  contains a b := decide (a.1 ≤ b.1 ∧ b.2 ≤ a.2)
  area a := a.2 - a.1
  lt a b := decide (a < b)
  sub a b := a - b
  div a b := a / b
  improvement := 0

/-- Result of a list of calls (oldest first), as a history and a state. -/
def runCalls (O : Ops V B S) (fuel : Nat) : List (Call V) → Hist V → Dbvt V B → Option (Hist V × Dbvt V B)
  | [], h, s => some (h, s)
  | c :: cs, h, s =>
    match call O fuel s c with
    | .ok (r, s') => runCalls O fuel cs ((c, r) :: h) s'
    | _ => none

theorem exec_of_run {O : Ops V B S} {fuel : Nat} {cs : List (Call V)} {h0 h : Hist V} {s0 s : Dbvt V B}
    (hl : ∀ c ∈ cs, ∀ vs, c ≠ .mutate vs) (h1 : Exec O h0 s0)
    (hr : runCalls O fuel cs h0 s0 = some (h, s)) : Exec O h s := by
  induction cs generalizing h0 s0 with
  | nil => simp [runCalls] at hr; obtain ⟨rfl, rfl⟩ := hr; exact h1
  | cons c cs ih =>
    simp only [runCalls] at hr
    split at hr
    · rename_i r s' hc
      refine ih (fun c hc => hl c (by simp [hc])) ?_ hr
      refine .step fuel h1 ?_ hc
      have := hl c (by simp)
      cases c <;> simp [Call.Legal]
      exact absurd rfl (this _)
    · simp at hr

/-- Seven calls: four values inserted, one moved, one removed, then a tick with all rotations tried. -/
def demoCalls : List (Call (Int × Int)) :=
  [.insert (0, 1), .insert (10, 11), .insert (4, 5), .insert (20, 22), .updateNode 3 (50, 51),
   .remove 1, .tick (fun _ => 0)]

/-- The demo history does run to completion. -/
theorem demo_exec : ∃ h s, Exec demo ((.tick (fun _ => 0), .unit) :: h) s ∧
    s.values = [(7, (20, 22)), (3, (50, 51)), (5, (4, 5))] ∧ Disciplined demo ((.tick (fun _ => 0), .unit) :: h) := by
  have hr : ∃ h s, runCalls demo 20 demoCalls [] Dbvt.new = some ((.tick (fun _ => 0), .unit) :: h, s) ∧
      s.values = [(7, (20, 22)), (3, (50, 51)), (5, (4, 5))] ∧ Disciplined demo ((.tick (fun _ => 0), .unit) :: h) :=
    ⟨_, _, rfl, rfl, by simp [Disciplined, Stale]⟩
  obtain ⟨h, s, hr, hv⟩ := hr
  exact ⟨h, s, exec_of_run (by intro c hc vs; simp [demoCalls] at hc; rcases hc with rfl | rfl | rfl | rfl | rfl | rfl | rfl <;> simp) .new hr, hv⟩

/-! ## C01: the tree is a finite map -/

/-- C01: after any history, `values()` is exactly the finite map the history denotes, with distinct
node indices. -/
theorem c01_finite_map (O : Ops V B S) {h : Hist V} {s : Dbvt V B} (he : Exec O h s) :
    (s.values.map Prod.fst).Nodup ∧ ∀ i v, (i, v) ∈ s.values ↔ mapOf h i = some v :=
  ⟨(exec_inv O he).wf.nodup, fun _ _ => (exec_inv O he).mem⟩

/-- The return value a finite map would give: `insert` picks an unused (non-zero) index, `remove`
returns the value bound to the index, the other calls return nothing. -/
def RetOK (h : Hist V) : Call V → Ret V → Prop
  | .insert _, r => ∃ i, r = .idx i ∧ mapOf h i = none ∧ i ≠ 0
  | .remove i, r => r = .removed (mapOf h i)
  | _, r => r = .unit

/-- C01: what each call returns, in terms of the map before the call. -/
theorem c01_returns (O : Ops V B S) {h : Hist V} {c : Call V} {r : Ret V} {s : Dbvt V B}
    (he : Exec O ((c, r) :: h) s) : RetOK h c r := by
  cases he with
  | @step _ s0 _ _ _ fuel he0 hleg hrun =>
  have hi := exec_inv O he0
  cases c with
  | insert v =>
    obtain ⟨i, s1, h1, h2, h3, h4, h5, h6, -⟩ := insert_spec O s0 hi.wf v
    simp only [call, h1, Res.bind_ok, Res.pure_eq, Res.ok.injEq, Prod.mk.injEq] at hrun
    refine ⟨i, hrun.1.symm, ?_, h5⟩
    rw [← hi.map]; exact lookup_none.2 h6
  | remove i =>
    simp only [call, Res.bind_eq_ok] at hrun
    obtain ⟨⟨o, s1⟩, hrm, hrun⟩ := hrun
    simp only [Res.pure_eq, Res.ok.injEq, Prod.mk.injEq] at hrun
    obtain ⟨rfl, rfl⟩ := hrun
    rcases remove_spec O hi.wf (remove_range hrm) with ⟨v, s2, hl⟩ | ⟨h1, h2⟩
    · have := hl.run
      rw [hrm] at this
      simp only [Res.ok.injEq, Prod.mk.injEq] at this
      simp only [RetOK, this.1, hi.mem.1 hl.mem]
    · rw [hrm] at h1
      simp only [Res.ok.injEq, Prod.mk.injEq] at h1
      simp only [RetOK, h1.1, ← hi.map, lookup_none.2 h2]
  | updateNode i w =>
    simp only [call, Res.bind_eq_ok] at hrun
    obtain ⟨s1, -, hrun⟩ := hrun
    simp only [Res.pure_eq, Res.ok.injEq, Prod.mk.injEq] at hrun
    exact hrun.1.symm
  | flagUpdated i =>
    simp only [call, Res.ok.injEq, Prod.mk.injEq] at hrun
    exact hrun.1.symm
  | update =>
    simp only [call, Res.bind_eq_ok] at hrun
    obtain ⟨s1, -, hrun⟩ := hrun
    simp only [Res.pure_eq, Res.ok.injEq, Prod.mk.injEq] at hrun
    exact hrun.1.symm
  | doRefit i =>
    simp only [call, Res.bind_eq_ok] at hrun
    obtain ⟨s1, -, hrun⟩ := hrun
    simp only [Res.pure_eq, Res.ok.injEq, Prod.mk.injEq] at hrun
    exact hrun.1.symm
  | tick i =>
    simp only [call, Res.bind_eq_ok] at hrun
    obtain ⟨s1, -, hrun⟩ := hrun
    simp only [Res.pure_eq, Res.ok.injEq, Prod.mk.injEq] at hrun
    exact hrun.1.symm
  | clear =>
    simp only [call, Res.ok.injEq, Prod.mk.injEq] at hrun
    exact hrun.1.symm
  | mutate i =>
    simp only [call, Res.bind_eq_ok] at hrun
    obtain ⟨s1, -, hrun⟩ := hrun
    simp only [Res.pure_eq, Res.ok.injEq, Prod.mk.injEq] at hrun
    exact hrun.1.symm

example : ∃ h s, Exec demo h s ∧ mapOf h 3 = some (50, 51) ∧ mapOf h 1 = none := by
  obtain ⟨h, s, he, hv, -⟩ := demo_exec
  refine ⟨_, s, he, ?_, ?_⟩
  · rw [← (c01_finite_map demo he).2, hv]; simp
  · rw [← (exec_inv demo he).map, hv]; rfl

/-! ## C02: positions and node indices -/

theorem WF.valueIndex {s : Dbvt V B} (h : WF s) (i k : Nat) :
    s.valueIndex i = .ok (some k) ↔ ∃ v, s.values[k]? = some (i, v) := by
  have e1 : s.valueIndex i = .ok (some k) ↔ ∃ l : Leaf B, s.nodes[i]? = some (.leaf l) ∧ l.value = k := by
    simp only [Dbvt.valueIndex, Res.bind_eq_ok]
    constructor
    · rintro ⟨n, hn, hk⟩
      cases hx : s.nodes[i]? with
      | none => simp [nodeAt, hx] at hn
      | some m =>
        rw [nodeAt_some hx] at hn
        simp at hn; subst hn
        cases m with
        | leaf l => simp at hk; exact ⟨l, rfl, hk⟩
        | branch b => simp at hk
        | nil => simp at hk
    · rintro ⟨l, hl, rfl⟩
      exact ⟨_, nodeAt_some hl, rfl⟩
  rw [e1]
  rcases h with h | ⟨t, h⟩
  · simp only [h.nodes, h.values]
    constructor
    · rintro ⟨l, hl, -⟩
      rw [List.getElem?_singleton] at hl
      split at hl <;> simp at hl
    · rintro ⟨v, hv⟩; simp at hv
  · constructor
    · rintro ⟨l, hl, rfl⟩
      exact h.vals.toVal i l hl
    · rintro ⟨v, hv⟩
      exact h.vals.toLeaf k i v hv

/-- C02: `value_index(i)` is `Some(k)` exactly when entry `k` of `values()` carries node index `i`. -/
theorem c02_value_index (O : Ops V B S) {h : Hist V} {s : Dbvt V B} (he : Exec O h s) (i k : Nat) :
    s.valueIndex i = .ok (some k) ↔ ∃ v, s.values[k]? = some (i, v) :=
  (exec_inv O he).wf.valueIndex i k

example : ∃ h s, Exec demo h s ∧ s.valueIndex 3 = .ok (some 1) := by
  obtain ⟨h, s, he, hv, -⟩ := demo_exec
  exact ⟨_, s, he, (c02_value_index demo he 3 1).2 ⟨_, by rw [hv]; rfl⟩⟩

/-! ## C03: node count -/

theorem WF.count {s : Dbvt V B} (h : WF s) :
    s.free.length + 1 ≤ s.nodes.length ∧
    s.size = if s.values.length = 0 then 0 else 2 * s.values.length - 1 := by
  rcases h with h | ⟨t, h⟩
  · simp [Dbvt.size, h.nodes, h.free, h.values]
  · have hp : (0 :: (s.free ++ t.idxs)).Perm (List.range s.nodes.length) := by
      rw [List.perm_ext_iff_of_nodup]
      · intro a
        simp only [List.mem_cons, List.mem_append, List.mem_range, h.free.mem]
        constructor
        · rintro (rfl | h1 | h1)
          · exact h.shape.len_pos
          · exact h1.2.1
          · exact h.shape.mem_lt h1
        · intro ha
          by_cases h0 : a = 0
          · exact Or.inl h0
          · by_cases ht : a ∈ t.idxs
            · exact Or.inr (Or.inr ht)
            · exact Or.inr (Or.inl ⟨by omega, ha, ht⟩)
      · simp only [List.nodup_cons, List.mem_append, List.nodup_append, h.free.mem]
        refine ⟨?_, h.free.nodup, h.shape.nodup, ?_⟩
        · rintro (h1 | h1)
          · omega
          · exact h.shape.pos h1
        · rintro a ha b hb rfl
          exact ha.2.2 hb
      · exact List.nodup_range
    have h1 := hp.length_eq
    have h2 := t.idxs_length
    have h3 := (leaves_values h).length_eq
    have h4 := t.leaves_pos
    simp only [List.length_cons, List.length_append, List.length_range, List.length_map] at h1 h3
    rw [if_neg (by omega)]
    simp only [Dbvt.size]
    omega

/-- C03: `size()` is 0 for the empty tree and `2 n - 1` for `n` values; the subtraction in the code
does not underflow. -/
theorem c03_size (O : Ops V B S) {h : Hist V} {s : Dbvt V B} (he : Exec O h s) :
    s.free.length + 1 ≤ s.nodes.length ∧
    s.size = if s.values.length = 0 then 0 else 2 * s.values.length - 1 :=
  (exec_inv O he).wf.count

example : ∃ h s, Exec demo h s ∧ s.size = 5 := by
  obtain ⟨h, s, he, hv, -⟩ := demo_exec
  exact ⟨_, s, he, by rw [(c03_size demo he).2, hv]; rfl⟩

/-! ## After refitting -/

/-- The last call refitted the tree. -/
def Refitted! : Hist V → Prop
  | (.doRefit _, _) :: _ => True
  | (.tick _, _) :: _ => True
  | _ => False

theorem refit_nil (O : Ops V B S) {h : Hist V} {s : Dbvt V B} (he : Exec O h s) (hr : Refitted! h) :
    s.refit = [] := by
  cases he with
  | new => exact absurd hr (by simp [Refitted!])
  | @step h0 s0 c r _ fuel he0 hleg hrun =>
    have hi := exec_inv O he0
    cases c with
    | doRefit rng =>
      simp only [call, Res.bind_eq_ok] at hrun
      obtain ⟨s1, hup, hrun⟩ := hrun
      simp only [Res.pure_eq, Res.ok.injEq, Prod.mk.injEq] at hrun
      obtain ⟨rfl, rfl⟩ := hrun
      exact (doRefit_of_ok O hi.wf hup).refit
    | tick rng =>
      simp only [call, Dbvt.tick, Res.bind_eq_ok] at hrun
      obtain ⟨s1, ⟨s2, hup, hrf⟩, hrun⟩ := hrun
      simp only [Res.pure_eq, Res.ok.injEq, Prod.mk.injEq] at hrun
      obtain ⟨rfl, rfl⟩ := hrun
      exact (doRefit_of_ok O (update_inv hi hup).1 hrf).refit
    | _ => exact absurd hr (by simp [Refitted!])

theorem local_ok (O : Ops V B S) {h : Hist V} {s : Dbvt V B} (he : Exec O h s) (hr : Refitted! h) :
    ∀ (i : Nat) (b : Branch B), s.nodes[i]? = some (.branch b) → LocalOK O s.nodes b := by
  intro i b hb
  rcases (exec_inv O he).refit i b hb with h1 | h1
  · rw [refit_nil O he hr] at h1; simp at h1
  · exact h1

/-- `Levels ns i n`: following child indices from node `i`, the stored tree has `n` levels. -/
inductive Levels (ns : List (Node B)) : Nat → Nat → Prop
  | leaf {i l} : ns[i]? = some (.leaf l) → Levels ns i 1
  | branch {i b m n} : ns[i]? = some (.branch b) → Levels ns b.left m → Levels ns b.right n →
      Levels ns i (1 + max m n)

theorem levels_of_rep {ns : List (Node B)} (w : T) :
    ∀ p, Rep (skelAt ns) p w → Levels ns w.root w.height := by
  induction w with
  | leaf i => intro p h; obtain ⟨l, hl, -⟩ := skelAt_leaf h; exact .leaf hl
  | node i a c iha ihc =>
    intro p h
    obtain ⟨b, hb, -, e1, e2⟩ := skelAt_branch h.1
    exact .branch hb (e1 ▸ iha i h.2.1) (e2 ▸ ihc i h.2.2)

theorem levels_unique {ns : List (Node B)} {i m n : Nat} (h1 : Levels ns i m) (h2 : Levels ns i n) : m = n := by
  induction h1 generalizing n with
  | leaf h =>
    cases h2 with
    | leaf _ => rfl
    | branch h' _ _ => rw [h] at h'; simp at h'
  | branch h _ _ ih1 ih2 =>
    cases h2 with
    | leaf h' => rw [h] at h'; simp at h'
    | branch h' a b =>
      rw [h] at h'; simp at h'; subst h'
      rw [ih1 a, ih2 b]

/-- C04: after `do_refit`/`tick`, `height()` is the number of levels of the stored tree. -/
theorem c04_height (O : Ops V B S) {h : Hist V} {s : Dbvt V B} (he : Exec O h s) (hr : Refitted! h) :
    ∃ n, s.height = .ok n ∧ (s.values = [] → n = 0) ∧ (s.values ≠ [] → Levels s.nodes s.root n) ∧
      n ≤ s.values.length ∧ s.values.length ≤ 2 ^ (n - 1) := by
  rcases (exec_inv O he).wf with hw | ⟨t, hw⟩
  · exact ⟨0, by simp [Dbvt.height, hw.values], fun _ => rfl, fun h => absurd hw.values h, by simp, by simp [hw.values]⟩
  · have hl := (leaves_values hw).length_eq
    simp only [List.length_map] at hl
    have hp := t.leaves_pos
    have hne : s.values ≠ [] := by intro e; rw [e] at hl; simp at hl; omega
    obtain ⟨bd, hbd⟩ := height_of_ok O (local_ok O he hr) t 0 hw.shape.rep
    refine ⟨t.height, ?_, fun e => absurd e hne, fun _ => ?_, ?_, ?_⟩
    · rw [← hw.shape.root_eq] at hbd
      unfold hbAt at hbd
      cases hn : s.nodes[s.root]? with
      | none => rw [hn] at hbd; simp at hbd
      | some n =>
        rw [hn] at hbd
        have : s.values.isEmpty = false := by cases hs : s.values with
          | nil => exact absurd hs hne
          | cons _ _ => rfl
        simp only [Dbvt.height, this, nodeAt_some hn, Res.bind_ok, Res.pure_eq]
        cases n with
        | leaf l => simp [Node.hb] at hbd; simp [Node.getHeight, hbd.1]
        | branch b => simp [Node.hb] at hbd; simp [Node.getHeight, hbd.1]
        | nil => simp [Node.hb] at hbd
    · rw [hw.shape.root_eq]; exact levels_of_rep t 0 hw.shape.rep
    · rw [hl]; exact t.height_le_leaves
    · rw [hl]; exact t.leaves_le_pow

example : ∃ h s, Exec demo h s ∧ Refitted! h ∧ s.height = .ok 3 := by
  obtain ⟨h, s, he, hv, -⟩ := demo_exec
  refine ⟨_, s, he, trivial, ?_⟩
  obtain ⟨n, h1, -, -, h2, h3⟩ := c04_height demo he trivial
  rw [hv] at h2 h3
  simp at h2 h3
  have : n = 3 := by
    rcases n with _ | _ | _ | _ | n <;> simp at h3 h2 <;> omega
  rw [h1, this]

/-! ## C05: termination -/

/-- C05: for every reachable tree there is a number of iterations after which `do_refit` has
terminated normally, whatever the random numbers are (and whatever the scalar operations answer). -/
theorem c05_do_refit_terminates (O : Ops V B S) {h : Hist V} {s : Dbvt V B} (he : Exec O h s) :
    ∃ N, ∀ rng n, N ≤ n → ∃ s', s.doRefit O rng n = .ok s' ∧ s.doRefit O rng N = .ok s' := by
  refine ⟨s.refitFuel, fun rng n hn => ?_⟩
  obtain ⟨s', h1, -⟩ := doRefit_wf O (exec_inv O he).wf rng s.refitFuel (Nat.le_refl _)
  exact ⟨s', doRefit_mono O _ _ rng s s' hn h1, h1⟩

/-- C05 has something to do: a reachable tree with a pending refit mark. -/
example : ∃ h s, Exec demo h s ∧ s.refit ≠ [] := by
  have hr : ∃ h s, runCalls demo 0 [.insert (0, 1), .insert (10, 11), .insert (4, 5)] [] Dbvt.new = some (h, s) ∧
      s.refit ≠ [] := ⟨_, _, rfl, by decide⟩
  obtain ⟨h, s, hr, hne⟩ := hr
  exact ⟨h, s, exec_of_run (by simp) .new hr, hne⟩

/-! ## C06: enclosure after refitting -/

/-- `j` is `i` or one of its descendants through stored child indices. -/
inductive Below (ns : List (Node B)) : Nat → Nat → Prop
  | refl (i) : Below ns i i
  | left {i b j} : ns[i]? = some (.branch b) → Below ns b.left j → Below ns i j
  | right {i b j} : ns[i]? = some (.branch b) → Below ns b.right j → Below ns i j

/-- C06: after `do_refit`/`tick` every branch stores the union of its children's volumes. -/
theorem c06_union (O : Ops V B S) {h : Hist V} {s : Dbvt V B} (he : Exec O h s) (hr : Refitted! h)
    {i : Nat} {b : Branch B} (hb : s.nodes[i]? = some (.branch b)) :
    ∃ x y, boundAt s.nodes b.left = .ok x ∧ boundAt s.nodes b.right = .ok y ∧ b.bound = O.union x y := by
  obtain ⟨x, y, hx, hy, -, hu⟩ := local_ok O he hr i b hb
  have key : ∀ (j : Nat) (z : Nat × B), hbAt s.nodes j = some z → boundAt s.nodes j = .ok z.2 := by
    intro j z hz
    unfold hbAt at hz
    cases hn : s.nodes[j]? with
    | none => rw [hn] at hz; simp at hz
    | some n =>
      rw [hn] at hz
      rw [boundAt_ok hn]
      cases n <;> simp [Node.hb] at hz <;> simp [Node.getBound, ← hz]
  exact ⟨x.2, y.2, key _ _ hx, key _ _ hy, hu⟩

/-- C06: hence, if unions enclose their arguments, every branch encloses everything below it. -/
theorem c06_encloses (O : Ops V B S) (enc : B → B → Prop) (hen : Encloses O enc)
    {h : Hist V} {s : Dbvt V B} (he : Exec O h s) (hr : Refitted! h)
    {i j : Nat} (hb : Below s.nodes i j) (hij : i ≠ j) {x y : B}
    (hx : boundAt s.nodes i = .ok x) (hy : boundAt s.nodes j = .ok y) : enc x y := by
  induction hb generalizing x with
  | refl i => exact absurd rfl hij
  | @left i b j hb hbel ih =>
    obtain ⟨u, v, hu, hv, e⟩ := c06_union O he hr hb
    rw [boundAt_ok hb] at hx
    simp [Node.getBound] at hx
    subst hx
    rw [e]
    by_cases hlj : b.left = j
    · subst hlj; rw [hu] at hy; simp at hy; subst hy; exact hen.union_left _ _
    · exact hen.trans (hen.union_left _ _) (ih hlj hu hy)
  | @right i b j hb hbel ih =>
    obtain ⟨u, v, hu, hv, e⟩ := c06_union O he hr hb
    rw [boundAt_ok hb] at hx
    simp [Node.getBound] at hx
    subst hx
    rw [e]
    by_cases hlj : b.right = j
    · subst hlj; rw [hv] at hy; simp at hy; subst hy; exact hen.union_right _ _
    · exact hen.trans (hen.union_right _ _) (ih hlj hv hy)

theorem demo_encloses : Encloses demo (fun a b => a.1 ≤ b.1 ∧ b.2 ≤ a.2) := by
  refine ⟨?_, ?_, ?_, ?_⟩ <;> simp [demo] <;> omega

/-! ## C07, C08: queries -/

/-- No bound changed since the last `update`/`tick` (true right after `tick`). -/
def UpToDate (O : Ops V B S) (h : Hist V) : Prop := pending h = [] ∧ ∀ i, ¬ Stale O h i

theorem upToDate_tick (O : Ops V B S) (rng : Nat → Nat) (r : Ret V) (h : Hist V) :
    UpToDate O ((.tick rng, r) :: h) := ⟨rfl, fun _ => id⟩

/-- The answer of an exact query by position: position `k` for every value whose own bound the visitor
accepts, with the visitor's result on that bound. -/
def exactIndices (O : Ops V B S) (f : B → Bool → Option R) (s : Dbvt V B) : List (Nat × R) :=
  (List.range s.values.length).filterMap fun k =>
    (s.values[k]?).bind fun e => (f (O.bound e.2) true).map fun r => (k, r)

/-- The answer of an exact query by value. -/
def exactValues (O : Ops V B S) (f : B → Bool → Option R) (s : Dbvt V B) : List (V × R) :=
  s.values.filterMap fun e => (f (O.bound e.2) true).map fun r => (e.2, r)

theorem leaves_range {s : Dbvt V B} {t : T} (h : WFt s t) (g : Nat → Option (Nat × R)) :
    (t.leaves.filterMap fun j => (leafAt s.nodes j).bind fun d => g d.1).Perm
      ((List.range s.values.length).filterMap g) := by
  have h1 := (leaves_values h).symm.filterMap (fun j => (leafAt s.nodes j).bind fun d => g d.1)
  refine h1.trans ?_
  have e : (s.values.map Prod.fst).filterMap (fun j => (leafAt s.nodes j).bind fun d => g d.1) =
      (List.range s.values.length).filterMap g := by
    have e2 : s.values.map Prod.fst = (List.range s.values.length).map (fun k => (s.values[k]?.map Prod.fst).getD 0) := by
      apply List.ext_getElem?
      intro k
      simp only [List.getElem?_map]
      by_cases hk : k < s.values.length
      · rw [List.getElem?_range hk]
        simp [List.getElem?_eq_getElem hk]
      · rw [List.getElem?_eq_none (by omega), List.getElem?_eq_none (by simp; omega)]
        rfl
    rw [e2, List.filterMap_map]
    refine List.filterMap_congr fun k hk => ?_
    rw [List.mem_range] at hk
    simp only [Function.comp, List.getElem?_eq_getElem hk, Option.map_some, Option.getD_some]
    obtain ⟨l, hl, hv⟩ := h.vals.toLeaf k _ _ (List.getElem?_eq_getElem hk)
    have hl' := leafAt_of hl
    simp only [List.get_eq_getElem] at hl'
    rw [hl']
    simp [hv]
  rw [e]

/-- Converting positions to values. -/
theorem query_map (O : Ops V B S) {s : Dbvt V B} {vis : Visitor σ B R} {st : σ} {l : List (Nat × R)}
    (h : s.queryForIndices O vis st = .ok l) (hl : ∀ p ∈ l, p.1 < s.values.length) :
    s.query O vis st = .ok (l.filterMap fun p => (s.values[p.1]?).map fun e => (e.2, p.2)) := by
  simp only [Dbvt.query, h, Res.bind_ok]
  clear h
  induction l with
  | nil => rfl
  | cons p l ih =>
    have hp := hl p (by simp)
    simp only [mapRes, List.getElem?_eq_getElem hp, Res.ofOption_some, Res.bind_ok, Res.pure_eq,
      List.filterMap_cons, Option.map_some]
    have := ih (fun q hq => hl q (by simp [hq]))
    simp only [Res.pure_eq] at this
    rw [this]
    rfl

theorem exactIndices_lt (O : Ops V B S) (f : B → Bool → Option R) (s : Dbvt V B) :
    ∀ p ∈ exactIndices O f s, p.1 < s.values.length := by
  intro p hp
  simp only [exactIndices, List.mem_filterMap, List.mem_range] at hp
  obtain ⟨k, hk, h⟩ := hp
  rw [List.getElem?_eq_getElem hk] at h
  simp at h
  obtain ⟨r, -, rfl⟩ := h
  exact hk

theorem exactIndices_values (O : Ops V B S) (f : B → Bool → Option R) (s : Dbvt V B) :
    ((exactIndices O f s).filterMap fun p => (s.values[p.1]?).map fun e => (e.2, p.2)) = exactValues O f s := by
  unfold exactIndices exactValues
  rw [List.filterMap_filterMap]
  conv_rhs => rw [show s.values = (List.range s.values.length).filterMap (fun k => s.values[k]?) by
    symm
    have : (List.range s.values.length).filterMap (fun k => s.values[k]?) = s.values := by
      have h2 : ∀ vs : List (Nat × V), (List.range vs.length).filterMap (fun k => vs[k]?) = vs := by
        intro vs
        induction vs with
        | nil => rfl
        | cons a vs ih =>
          simp only [List.length_cons, List.range_succ_eq_map, List.filterMap_cons, List.getElem?_cons_zero,
            List.filterMap_map]
          congr 1
      exact h2 s.values
    exact this.symm ▸ rfl]
  rw [List.filterMap_filterMap]
  refine List.filterMap_congr fun k hk => ?_
  rw [List.mem_range] at hk
  rw [List.getElem?_eq_getElem hk]
  simp only [Option.bind_some]
  cases f (O.bound s.values[k].2) true with
  | none => rfl
  | some r => simp [List.getElem?_eq_getElem hk]

/-- C07: after refitting an up-to-date tree, a query with a monotone visitor that returns, returns exactly the accepted positions /
values, each once, with the visitor's result. It returns unless the tree has more than 256 levels (and then the only other outcome is
a panic, C11). -/
theorem c07_query (O : Ops V B S) (enc : B → B → Prop) (hen : Encloses O enc)
    (hfat : ∀ v, O.contains (O.fat v) (O.bound v) = true)
    (f : B → Bool → Option R) (hm : MonoVisitor enc f)
    {h : Hist V} {s : Dbvt V B} (he : Exec O h s) (hd : Disciplined O h) (hu : UpToDate O h)
    (hr : Refitted! h) {n : Nat} (hh : s.height = .ok n) :
    ((∃ l, s.queryForIndices O (pureVisitor f) () = .ok l ∧ l.Perm (exactIndices O f s)) ∧
      (∃ l, s.query O (pureVisitor f) () = .ok l ∧ l.Perm (exactValues O f s))) ∨
    (256 < n ∧ s.queryForIndices O (pureVisitor f) () = .panic ∧ s.query O (pureVisitor f) () = .panic) := by
  have hi := exec_inv O he
  have main : (∃ l, s.queryForIndices O (pureVisitor f) () = .ok l ∧ l.Perm (exactIndices O f s)) ∨
      (256 < n ∧ s.queryForIndices O (pureVisitor f) () = .panic) := by
    rcases hi.wf with hw | ⟨t, hw⟩
    · left; exact ⟨[], queryForIndices_empty O hw _ _, by simp [exactIndices, hw.values]⟩
    · have hht : n = t.height := by
        obtain ⟨m, h1, -, h2, h3, h4⟩ := c04_height O he hr
        rw [hh] at h1; simp at h1; subst h1
        have hl := (leaves_values hw).length_eq
        simp only [List.length_map] at hl
        have hp := t.leaves_pos
        have hne : s.values ≠ [] := by intro e; rw [e] at hl; simp at hl; omega
        refine levels_unique (h2 hne) ?_
        rw [hw.shape.root_eq]; exact levels_of_rep t 0 hw.shape.rep
      rcases queryForIndices_tree O hw (pureVisitor f) () with h1 | ⟨h0, h1⟩
      · left
        refine ⟨_, h1, ?_⟩
        have hcov := hi.cov (fun _ => True) (fun v _ => hfat v) hd
        have henc : ∀ (i : Nat) (l : Leaf B) (e : Nat × V), s.nodes[i]? = some (.leaf l) →
            s.values[l.value]? = some e → enc l.bound (O.bound e.2) := by
          intro i l e hl hv
          rcases hcov e (List.mem_of_getElem? hv) trivial with h | h | ⟨bd, h2, h3⟩
          · rw [hu.1] at h; simp at h
          · exact absurd h (hu.2 _)
          · obtain ⟨w, hw'⟩ := hw.vals.toVal i l hl
            rw [hv] at hw'
            simp at hw'; subst hw'
            rw [leafAt_of hl] at h2
            simp at h2; subst h2
            exact hen.contains h3
        have := qT_exact O enc s f hm hw.vals t ?_ ⟨0, hw.shape.rep⟩
        · exact this.trans (leaves_range hw (fun k => (s.values[k]?).bind fun e =>
            (f (O.bound e.2) true).map fun r => (k, r)))
        · rintro i b hb w ⟨p, hrep⟩ rfl j hj l e hl hv
          obtain ⟨z, hz, hez⟩ := encl_of_ok O hen (local_ok O he hr) henc w p hrep j hj l e hl hv
          simp [hbAt, hb, Node.hb] at hz
          rw [← hz] at hez
          exact hez
      · right; exact ⟨by omega, h0⟩
  rcases main with main | ⟨h1, h2⟩
  case inr => exact Or.inr ⟨h1, h2, by simp only [Dbvt.query, h2, Res.bind_panic]⟩
  refine Or.inl ⟨main, ?_⟩
  obtain ⟨l, h1, h2⟩ := main
  have hlt : ∀ p ∈ l, p.1 < s.values.length := fun p hp => exactIndices_lt O f s p (h2.mem_iff.1 hp)
  refine ⟨_, query_map O h1 hlt, ?_⟩
  rw [← exactIndices_values]
  exact h2.filterMap _

/-- C07 on trees of at most 256 levels: a query returns exactly the accepted positions / values. -/
theorem c07_query_exact (O : Ops V B S) (enc : B → B → Prop) (hen : Encloses O enc)
    (hfat : ∀ v, O.contains (O.fat v) (O.bound v) = true)
    (f : B → Bool → Option R) (hm : MonoVisitor enc f)
    {h : Hist V} {s : Dbvt V B} (he : Exec O h s) (hd : Disciplined O h) (hu : UpToDate O h)
    (hr : Refitted! h) {n : Nat} (hh : s.height = .ok n) (hn : n ≤ 256) :
    (∃ l, s.queryForIndices O (pureVisitor f) () = .ok l ∧ l.Perm (exactIndices O f s)) ∧
    (∃ l, s.query O (pureVisitor f) () = .ok l ∧ l.Perm (exactValues O f s)) := by
  rcases c07_query O enc hen hfat f hm he hd hu hr hh with h | ⟨h, -⟩
  · exact h
  · omega

/-- A monotone visitor: does the interval contain 21? -/
def demoVisitor (b : Int × Int) (_ : Bool) : Option Unit := if b.1 ≤ 21 ∧ 21 ≤ b.2 then some () else none

example : ∃ h s n l, Exec demo h s ∧ Disciplined demo h ∧ UpToDate demo h ∧ Refitted! h ∧ s.height = .ok n ∧
    n ≤ 256 ∧ (∀ v, demo.contains (demo.fat v) (demo.bound v) = true) ∧
    MonoVisitor (fun a b => a.1 ≤ b.1 ∧ b.2 ≤ a.2) demoVisitor ∧
    s.query demo (pureVisitor demoVisitor) () = .ok l ∧ l.Perm [((20, 22), ())] := by
  obtain ⟨h, s, he, hv, hd⟩ := demo_exec
  obtain ⟨n, h1, -, -, h2, -⟩ := c04_height demo he trivial
  have hm : MonoVisitor (fun a b => a.1 ≤ b.1 ∧ b.2 ≤ a.2) demoVisitor := by
    intro a b hab hb
    simp only [demoVisitor] at hb ⊢
    split at hb
    · rw [if_pos (by omega)]; rfl
    · simp at hb
  have hf : ∀ v, demo.contains (demo.fat v) (demo.bound v) = true := by intro v; simp [demo]
  have hn : n ≤ 256 := by rw [hv] at h2; simp at h2; omega
  obtain ⟨-, l, hl, hp⟩ := c07_query_exact demo _ demo_encloses hf demoVisitor hm he hd (upToDate_tick _ _ _ _) trivial h1 hn
  refine ⟨_, s, n, l, he, hd, upToDate_tick _ _ _ _, trivial, h1, hn, hf, hm, hl, ?_⟩
  have : exactValues demo demoVisitor s = [((20, 22), ())] := by
    unfold exactValues; rw [hv]; rfl
  rw [← this]; exact hp

/-- C08: whatever the visitor (stateful, not monotone) and however out of date the tree is, a query
that returns only reports live positions, whose own bound the visitor accepted (in some state) with
the reported result, and reports no position twice. -/
theorem c08_query_sound (O : Ops V B S) {h : Hist V} {s : Dbvt V B} (he : Exec O h s)
    (vis : Visitor σ B R) (st : σ) {l : List (Nat × R)} (hq : s.queryForIndices O vis st = .ok l) :
    (l.map Prod.fst).Nodup ∧
    ∀ k r, (k, r) ∈ l → ∃ e st', s.values[k]? = some e ∧ (vis st' (O.bound e.2) true).1 = some r := by
  rcases (exec_inv O he).wf with hw | ⟨t, hw⟩
  · rw [queryForIndices_empty O hw] at hq
    simp at hq; subst hq; simp
  · rcases queryForIndices_tree O hw vis st with h1 | ⟨h1, -⟩
    · rw [hq] at h1; simp at h1; subst h1
      refine ⟨qT_nodup O s hw.vals vis t st hw.shape.nodup, fun k r hm => ?_⟩
      obtain ⟨i, l, e, st', -, -, -, h3, h4⟩ := qT_sound O s vis t st k r hm
      exact ⟨e, st', h3, h4⟩
    · rw [hq] at h1; simp at h1

/-- C08 for `query`: the reported pairs are those of `query_for_indices`, with positions replaced by
the values there. -/
theorem c08_query_values (O : Ops V B S) {h : Hist V} {s : Dbvt V B} (he : Exec O h s)
    (vis : Visitor σ B R) (st : σ) {l : List (Nat × R)} (hq : s.queryForIndices O vis st = .ok l) :
    s.query O vis st = .ok (l.filterMap fun p => (s.values[p.1]?).map fun e => (e.2, p.2)) := by
  refine query_map O hq fun p hp => ?_
  obtain ⟨e, -, h1, -⟩ := (c08_query_sound O he vis st hq).2 p.1 p.2 hp
  exact lt_of_getElem? h1

/-- C08 applies before any refit: the query on the unrefitted demo tree returns something. -/
example : ∃ h s l, Exec demo h s ∧ s.refit ≠ [] ∧ s.queryForIndices demo (pureVisitor demoVisitor) () = .ok l ∧ l ≠ [] := by
  have hr : ∃ h s l, runCalls demo 0 [.insert (0, 1), .insert (20, 25), .insert (24, 25), .insert (21,21)] [] Dbvt.new = some (h, s) ∧
      s.refit ≠ [] ∧ s.queryForIndices demo (pureVisitor demoVisitor) () = .ok l ∧ l ≠ [] :=
    ⟨_, _, _, rfl, by decide, rfl, by decide⟩
  obtain ⟨h, s, l, hr, h1, h2, h3⟩ := hr
  exact ⟨h, s, l, exec_of_run (by simp) .new hr, h1, h2, h3⟩

/-! ## C09: removed values -/

/-- An index stays unbound after `remove` until some `insert` returns it again. -/
theorem mapOf_removed (O : Ops V B S) {i : Nat} {r : Ret V} {h : Hist V} : ∀ (h2 : Hist V) (s : Dbvt V B),
    Exec O (h2 ++ (.remove i, r) :: h) s → (∀ p ∈ h2, p.2 ≠ .idx i) →
    mapOf (h2 ++ (.remove i, r) :: h) i = none := by
  intro h2
  induction h2 with
  | nil => intro s _ _; simp [mapOf]
  | cons p h2 ih =>
    intro s he hno
    obtain ⟨c, r'⟩ := p
    have hret := c01_returns O he
    cases he with
    | @step _ s0 _ _ _ fuel he0 hleg hrun =>
    have := ih s0 he0 (fun p hp => hno p (by simp [hp]))
    have hr' := hno (c, r') (by simp)
    cases c with
    | insert v =>
      obtain ⟨k, rfl, -⟩ := hret
      simp only [List.cons_append, mapOf]
      rw [if_neg]
      · exact this
      · rintro rfl; exact hr' rfl
    | remove k =>
      simp only [List.cons_append, mapOf]
      split
      · rfl
      · exact this
    | updateNode k w =>
      simp only [List.cons_append, mapOf]
      split
      · rename_i e; subst e; rw [this]; rfl
      · exact this
    | flagUpdated k => exact this
    | update => exact this
    | doRefit _ => exact this
    | tick _ => exact this
    | clear => rfl
    | mutate vs =>
      simp only [List.cons_append, mapOf]
      rw [lookup_none]
      intro e hev hei
      have hm := hleg.mem_iff.1 (List.mem_map.2 ⟨e, hev, rfl⟩)
      obtain ⟨⟨a, v⟩, h1, h2⟩ := List.mem_map.1 hm
      simp only at h2
      have h3 := (exec_inv O he0).mem.1 h1
      rw [h2, hei] at h3
      exact absurd (h3.symm.trans this) (by simp)

/-- C09: after `remove(i)`, as long as no `insert` returns `i` again: `value_index(i)` is not
`Some`, `values()` has no entry for `i`, and no query reports one. -/
theorem c09_removed (O : Ops V B S) {i : Nat} {r : Ret V} {h h2 : Hist V} {s : Dbvt V B}
    (he : Exec O (h2 ++ (.remove i, r) :: h) s) (hno : ∀ p ∈ h2, p.2 ≠ .idx i) :
    (∀ k, s.valueIndex i ≠ .ok (some k)) ∧ (∀ v, (i, v) ∉ s.values) ∧
    (∀ {σ R : Type} (vis : Visitor σ B R) (st : σ) (l : List (Nat × R)), s.queryForIndices O vis st = .ok l →
      ∀ p ∈ l, ∀ v, s.values[p.1]? ≠ some (i, v)) := by
  have hn := mapOf_removed O h2 s he hno
  have h1 : ∀ v, (i, v) ∉ s.values := by
    intro v hv
    rw [(exec_inv O he).mem.1 hv] at hn
    simp at hn
  refine ⟨fun k hk => ?_, h1, fun vis st l _ p _ v hv => h1 v (List.mem_of_getElem? hv)⟩
  obtain ⟨v, hv⟩ := (c02_value_index O he i k).1 hk
  exact h1 v (List.mem_of_getElem? hv)

example : ∃ (h2 h : Hist (Int × Int)) (s : Dbvt (Int × Int) (Int × Int)) (r : Ret (Int × Int)),
    Exec demo (h2 ++ (.remove 1, r) :: h) s ∧ (∀ p ∈ h2, p.2 ≠ .idx 1) ∧ r = .removed (some (0, 1)) := by
  have hr : ∃ (h2 h : Hist (Int × Int)) (s : Dbvt (Int × Int) (Int × Int)) (r : Ret (Int × Int)),
      runCalls demo 20 demoCalls [] Dbvt.new = some (h2 ++ (.remove 1, r) :: h, s) ∧ r = .removed (some (0, 1)) ∧ h2 = [(.tick (fun _ => 0), .unit)] :=
    ⟨[(.tick (fun _ => 0), .unit)], _, _, _, rfl, rfl, rfl⟩
  obtain ⟨h2, h, s, r, hr, hr1, hr2⟩ := hr
  exact ⟨h2, h, s, r, exec_of_run (by intro c hc vs; simp [demoCalls] at hc; rcases hc with rfl | rfl | rfl | rfl | rfl | rfl | rfl <;> simp) .new hr, by rw [hr2]; simp, hr1⟩

/-! ## C10: panics -/

/-- C10 as stated is false, for every value and bound type: insert a value, update it, remove it,
tick: only live indices are passed, and `tick` panics (`updated_list` outlives `clear`). -/
theorem c10_false (O : Ops V B S) (v w : V) (rng : Nat → Nat) (fuel : Nat) :
    ∃ (h : Hist V) (s : Dbvt V B), Exec O h s ∧
      h = [(.remove 1, .removed (some w)), (.updateNode 1 w, .unit), (.insert v, .idx 1)] ∧
      call O fuel s (.tick rng) = .panic ∧ call O fuel s .update = .panic := by
  refine ⟨_, { (Dbvt.new : Dbvt V B) with updated := [1] }, ?_, rfl, rfl, rfl⟩
  refine .step 0 (.step 0 (.step 0 .new trivial rfl) trivial rfl) trivial ?_
  rfl

/-- The calls a careful user makes: only live indices are passed. -/
def LiveCall (h : Hist V) : Call V → Prop
  | .remove i => (mapOf h i).isSome
  | .updateNode i _ => (mapOf h i).isSome
  | .flagUpdated i => (mapOf h i).isSome
  | _ => True

/-- A history of live calls in which the tree never became empty while flagged updates were pending. -/
def Prudent : Hist V → Prop
  | [] => True
  | (c, r) :: h => Prudent h ∧ LiveCall h c ∧ ((∀ i, mapOf ((c, r) :: h) i = none) → pending ((c, r) :: h) = [])

theorem pending_range (O : Ops V B S) {h : Hist V} {s : Dbvt V B} (he : Exec O h s) (hp : Prudent h) :
    ∀ i ∈ s.updated, i < s.nodes.length := by
  induction he with
  | new => simp [Dbvt.new]
  | @step h s c r s' fuel he0 hleg hrun ih =>
    have he1 := Exec.step fuel he0 hleg hrun
    have hi' := exec_inv O he1
    obtain ⟨hp0, hlive, hempty⟩ := hp
    have ih := ih hp0
    have hi := exec_inv O he0
    have live : ∀ i, (mapOf h i).isSome → i < s.nodes.length := by
      intro i hsome
      obtain ⟨v, hv⟩ := Option.isSome_iff_exists.1 hsome
      obtain ⟨l, hl⟩ := hi.wf.mem_iff_leaf.1 ⟨v, hi.mem.2 hv⟩
      exact lt_of_getElem? hl
    cases c with
    | insert v =>
      obtain ⟨i, s1, h1, h2, h3, h4, h5, h6, h7, -, h9, h10⟩ := insert_spec O s hi.wf v
      simp only [call, h1, Res.bind_ok, Res.pure_eq, Res.ok.injEq, Prod.mk.injEq] at hrun
      obtain ⟨rfl, rfl⟩ := hrun
      intro j hj
      rw [h4] at hj
      have := ih j hj
      omega
    | remove i =>
      simp only [call, Res.bind_eq_ok] at hrun
      obtain ⟨⟨o, s1⟩, hrm, hrun⟩ := hrun
      simp only [Res.pure_eq, Res.ok.injEq, Prod.mk.injEq] at hrun
      obtain ⟨rfl, rfl⟩ := hrun
      rcases remove_spec O hi.wf (remove_range hrm) with ⟨v, s2, hl⟩ | ⟨h1, h2⟩
      · have := hl.run
        rw [hrm] at this
        simp at this
        obtain ⟨rfl, rfl⟩ := this
        intro j hj
        rcases hl.len with e | e
        · rw [e]; rw [hl.updated] at hj; exact ih j hj
        · have : pending ((Call.remove i, Ret.removed (some v)) :: h) = [] := by
            refine hempty fun k => ?_
            rw [← hi'.map, e]; rfl
          rw [hi'.upd, this] at hj
          simp at hj
      · rw [hrm] at h1
        simp at h1
        obtain ⟨rfl, rfl⟩ := h1
        exact ih
    | updateNode i w =>
      simp only [call, Res.bind_eq_ok] at hrun
      obtain ⟨s1, hup, hrun⟩ := hrun
      simp only [Res.pure_eq, Res.ok.injEq, Prod.mk.injEq] at hrun
      obtain ⟨rfl, rfl⟩ := hrun
      obtain ⟨s2, h1, h2, h3, h4, -⟩ := updateNode_spec O s hi.wf i w (updateNode_range hup)
      rw [hup] at h1
      simp at h1; subst h1
      rw [h3, h4]
      intro j hj
      simp only [List.mem_append, List.mem_singleton] at hj
      rcases hj with hj | rfl
      · exact ih j hj
      · exact live _ hlive
    | flagUpdated i =>
      simp only [call, Res.ok.injEq, Prod.mk.injEq] at hrun
      obtain ⟨rfl, rfl⟩ := hrun
      intro j hj
      simp only [Dbvt.flagUpdated, List.mem_append, List.mem_singleton] at hj ⊢
      rcases hj with hj | rfl
      · exact ih j hj
      · exact live _ hlive
    | update => rw [hi'.upd]; simp [pending]
    | doRefit rng =>
      simp only [call, Res.bind_eq_ok] at hrun
      obtain ⟨s1, hup, hrun⟩ := hrun
      simp only [Res.pure_eq, Res.ok.injEq, Prod.mk.injEq] at hrun
      obtain ⟨rfl, rfl⟩ := hrun
      have hd := doRefit_of_ok O hi.wf hup
      rw [hd.updated, hd.len]; exact ih
    | tick rng => rw [hi'.upd]; simp [pending]
    | clear =>
      have : pending ((Call.clear, r) :: h) = [] := hempty fun _ => rfl
      rw [hi'.upd, this]; simp
    | mutate vs =>
      obtain ⟨s1, h1, h2, h3, h4, h5, -⟩ := reindex_spec O s hi.wf vs hleg
      simp only [call, h1, Res.bind_ok, Res.pure_eq, Res.ok.injEq, Prod.mk.injEq] at hrun
      obtain ⟨rfl, rfl⟩ := hrun
      rw [h4, h5]; exact ih

/-- C10 (partial): if the tree never becomes empty while flagged updates are pending, no call with
live indices panics or loops: it returns, for every random stream, once the refit loop is given
enough iterations. Missing: the excluded case, which does panic (`c10_false`). -/
theorem c10_no_panic_partial (O : Ops V B S) {h : Hist V} {s : Dbvt V B} (he : Exec O h s)
    (hp : Prudent h) (c : Call V) (hl : LiveCall h c) (hleg : c.Legal s) :
    ∃ N, ∀ fuel, N ≤ fuel → ∃ r s', call O fuel s c = .ok (r, s') := by
  have hi := exec_inv O he
  have hu := pending_range O he hp
  have live : ∀ i, (mapOf h i).isSome → i < s.nodes.length := by
    intro i hsome
    obtain ⟨v, hv⟩ := Option.isSome_iff_exists.1 hsome
    obtain ⟨l, hl⟩ := hi.wf.mem_iff_leaf.1 ⟨v, hi.mem.2 hv⟩
    exact lt_of_getElem? hl
  cases c with
  | insert v =>
    obtain ⟨i, s1, h1, -⟩ := insert_spec O s hi.wf v
    exact ⟨0, fun fuel _ => ⟨_, _, by simp only [call, h1, Res.bind_ok, Res.pure_eq]; rfl⟩⟩
  | remove i =>
    rcases remove_spec O hi.wf (live i hl) with ⟨v, s2, hrl⟩ | ⟨h1, h2⟩
    · exact ⟨0, fun fuel _ => ⟨_, _, by simp only [call, hrl.run, Res.bind_ok, Res.pure_eq]; rfl⟩⟩
    · exact ⟨0, fun fuel _ => ⟨_, _, by simp only [call, h1, Res.bind_ok, Res.pure_eq]; rfl⟩⟩
  | updateNode i w =>
    obtain ⟨s2, h1, -⟩ := updateNode_spec O s hi.wf i w (live i hl)
    exact ⟨0, fun fuel _ => ⟨_, _, by simp only [call, h1, Res.bind_ok, Res.pure_eq]; rfl⟩⟩
  | flagUpdated i => exact ⟨0, fun fuel _ => ⟨_, _, rfl⟩⟩
  | update =>
    obtain ⟨s1, h1, -⟩ := update_spec O s hi.wf hu
    exact ⟨0, fun fuel _ => ⟨_, _, by simp only [call, h1, Res.bind_ok, Res.pure_eq]; rfl⟩⟩
  | doRefit rng =>
    refine ⟨s.refitFuel, fun fuel hf => ?_⟩
    obtain ⟨s1, h1, -⟩ := doRefit_wf O hi.wf rng fuel hf
    exact ⟨_, _, by simp only [call, h1, Res.bind_ok, Res.pure_eq]; rfl⟩
  | tick rng =>
    obtain ⟨s1, h1, h2, -⟩ := update_spec O s hi.wf hu
    refine ⟨s1.refitFuel, fun fuel hf => ?_⟩
    obtain ⟨s2, h3, -⟩ := doRefit_wf O h2 rng fuel hf
    exact ⟨_, _, by simp only [call, Dbvt.tick, h1, h3, Res.bind_ok, Res.pure_eq]; rfl⟩
  | clear => exact ⟨0, fun fuel _ => ⟨_, _, rfl⟩⟩
  | mutate vs =>
    obtain ⟨s1, h1, -⟩ := reindex_spec O s hi.wf vs hleg
    exact ⟨0, fun fuel _ => ⟨_, _, by simp only [call, h1, Res.bind_ok, Res.pure_eq]; rfl⟩⟩

example : ∃ (h : Hist (Int × Int)) (s : Dbvt (Int × Int) (Int × Int)), Exec demo h s ∧ Prudent h ∧
    LiveCall h (.remove 1) ∧ pending h = [1] := by
  have hr : ∃ h s, runCalls demo 20 [.insert (0, 1), .insert (2, 3), .updateNode 1 (5, 5)] [] Dbvt.new = some (h, s) ∧
     Prudent h ∧ LiveCall h (.remove 1) ∧ pending h = [1] := by
    refine ⟨[(.updateNode 1 (5, 5), .unit), (.insert (2, 3), .idx 3), (.insert (0, 1), .idx 1)], _, rfl, ?_, ?_, ?_⟩
    · refine ⟨⟨⟨trivial, trivial, fun _ => rfl⟩, trivial, fun _ => rfl⟩, by simp [LiveCall, mapOf], fun h => ?_⟩
      have := h 1
      simp [mapOf] at this
    · simp [LiveCall, mapOf]
    · rfl
  obtain ⟨h, s, hr, h1, h2, h3⟩ := hr
  exact ⟨h, s, exec_of_run (by simp) .new hr, h1, h2, h3⟩

/-! ## C12, C13, C14 -/

/-- C12: after reordering / replacing the entries of `values_mut()` and `reindex_values()`, the tree
holds exactly the new entries, every node index leads to its new position, and the node count is
unchanged.  (C01-C09 hold afterwards because `mutate` is one of the calls of `Exec`.) -/
theorem c12_reorder (O : Ops V B S) {h : Hist V} {s : Dbvt V B} (he : Exec O h s) (vs : List (Nat × V))
    (hp : (vs.map Prod.fst).Perm (s.values.map Prod.fst)) :
    ∃ s', ({ s with values := vs }).reindexValues = .ok s' ∧ s'.values = vs ∧ s'.size = s.size ∧
      (∀ k i, s'.valueIndex i = .ok (some k) ↔ ∃ v, vs[k]? = some (i, v)) := by
  obtain ⟨s1, h1, h2, h3, h4, h5, h6, h7, h8, -⟩ := reindex_spec O s (exec_inv O he).wf vs hp
  refine ⟨s1, h1, h3, by simp only [Dbvt.size, h5, h8], fun k i => ?_⟩
  rw [h2.valueIndex, h3]

example : ∃ h s, Exec demo h s ∧
    (([(5, (1, 1)), (7, (2, 2)), (3, (0, 3))] : List (Nat × (Int × Int))).map Prod.fst).Perm (s.values.map Prod.fst) := by
  obtain ⟨h, s, he, hv, -⟩ := demo_exec
  exact ⟨_, s, he, by rw [hv]; decide⟩

/-- C13: two runs of `do_refit` from the same state with different random numbers (so: different
rotations) give the same values, the same bindings and size. -/
theorem c13_rotation_values (O : Ops V B S) {h : Hist V} {s s1 s2 : Dbvt V B} (he : Exec O h s)
    {rng1 rng2 : Nat → Nat} {n1 n2 : Nat} (h1 : s.doRefit O rng1 n1 = .ok s1)
    (h2 : s.doRefit O rng2 n2 = .ok s2) :
    s1.values = s2.values ∧ s1.size = s2.size ∧ ∀ i, s1.valueIndex i = s2.valueIndex i := by
  have d1 := doRefit_of_ok O (exec_inv O he).wf h1
  have d2 := doRefit_of_ok O (exec_inv O he).wf h2
  refine ⟨by rw [d1.values, d2.values], by simp only [Dbvt.size, d1.len, d1.free, d2.len, d2.free], fun i => ?_⟩
  have key : ∀ (ns ns' : List (Node B)), ns.length = ns'.length → leafAt ns i = leafAt ns' i →
      ∀ (x y : Dbvt V B), x.nodes = ns → y.nodes = ns' → x.valueIndex i = y.valueIndex i := by
    intro ns ns' hl hleaf x y hx hy
    simp only [Dbvt.valueIndex, hx, hy, nodeAt]
    by_cases hlt : i < ns.length
    · have hlt' : i < ns'.length := by omega
      simp only [leafAt, List.getElem?_eq_getElem hlt, List.getElem?_eq_getElem hlt', Option.bind_some] at hleaf
      simp only [List.getElem?_eq_getElem hlt, List.getElem?_eq_getElem hlt', Res.ofOption_some, Res.bind_ok]
      cases hn : ns[i] <;> cases hn' : ns'[i] <;> rw [hn, hn'] at hleaf <;> simp_all [Node.leafData]
    · rw [List.getElem?_eq_none (by omega), List.getElem?_eq_none (by omega)]
  exact key _ _ (by rw [d1.len, d2.len]) (by rw [d1.leaf, d2.leaf]) _ _ rfl rfl

/-- C13: and, for trees at most 256 levels high, the same query results up to order. -/
theorem c13_rotation_queries (O : Ops V B S) (enc : B → B → Prop) (hen : Encloses O enc)
    (hfat : ∀ v, O.contains (O.fat v) (O.bound v) = true)
    (f : B → Bool → Option R) (hm : MonoVisitor enc f)
    {h : Hist V} {s s1 s2 : Dbvt V B} (he : Exec O h s) (hd : Disciplined O h) (hu : UpToDate O h)
    {rng1 rng2 : Nat → Nat} {n1 n2 : Nat} (h1 : s.doRefit O rng1 n1 = .ok s1)
    (h2 : s.doRefit O rng2 n2 = .ok s2) {m1 m2 : Nat} (hh1 : s1.height = .ok m1) (hh2 : s2.height = .ok m2)
    (hm1 : m1 ≤ 256) (hm2 : m2 ≤ 256) :
    ∃ l1 l2, s1.queryForIndices O (pureVisitor f) () = .ok l1 ∧
      s2.queryForIndices O (pureVisitor f) () = .ok l2 ∧ l1.Perm l2 := by
  have e1 : Exec O ((.doRefit rng1, .unit) :: h) s1 :=
    .step n1 he trivial (by simp [call, h1])
  have e2 : Exec O ((.doRefit rng2, .unit) :: h) s2 :=
    .step n2 he trivial (by simp [call, h2])
  obtain ⟨⟨l1, a1, b1⟩, -⟩ := c07_query_exact O enc hen hfat f hm e1 hd hu trivial hh1 hm1
  obtain ⟨⟨l2, a2, b2⟩, -⟩ := c07_query_exact O enc hen hfat f hm e2 hd hu trivial hh2 hm2
  refine ⟨l1, l2, a1, a2, b1.trans ?_⟩
  have : exactIndices O f s1 = exactIndices O f s2 := by
    unfold exactIndices
    rw [(c13_rotation_values O he h1 h2).1]
  rw [this]
  exact b2.symm

example : ∃ h s s1 s2, Exec demo h s ∧ Disciplined demo h ∧ UpToDate demo h ∧
    s.doRefit demo (fun _ => 0) 20 = .ok s1 ∧ s.doRefit demo (fun _ => 50) 20 = .ok s2 ∧ s.refit ≠ [] := by
  have hr : ∃ h s s1 s2, runCalls demo 0 [.insert (0, 1), .insert (10, 11), .insert (4, 5)] [] Dbvt.new = some (h, s) ∧
      Disciplined demo h ∧ UpToDate demo h ∧
      s.doRefit demo (fun _ => 0) 20 = .ok s1 ∧ s.doRefit demo (fun _ => 50) 20 = .ok s2 ∧ s.refit ≠ [] :=
    ⟨_, _, _, _, rfl, by simp [Disciplined], by simp [UpToDate, pending, Stale], rfl, rfl, by decide⟩
  obtain ⟨h, s, s1, s2, hr, hne⟩ := hr
  exact ⟨h, s, s1, s2, exec_of_run (by simp) .new hr, hne⟩

/-- C13, queries, without a limit on the height: whatever the two trees' queries return is the same up to order. -/
theorem c13_rotation_query (O : Ops V B S) (enc : B → B → Prop) (hen : Encloses O enc)
    (hfat : ∀ v, O.contains (O.fat v) (O.bound v) = true)
    (f : B → Bool → Option R) (hm : MonoVisitor enc f)
    {h : Hist V} {s s1 s2 : Dbvt V B} (he : Exec O h s) (hd : Disciplined O h) (hu : UpToDate O h)
    {rng1 rng2 : Nat → Nat} {n1 n2 : Nat} (h1 : s.doRefit O rng1 n1 = .ok s1)
    (h2 : s.doRefit O rng2 n2 = .ok s2) {l1 l2 : List (Nat × R)} (hq1 : s1.queryForIndices O (pureVisitor f) () = .ok l1)
    (hq2 : s2.queryForIndices O (pureVisitor f) () = .ok l2) : l1.Perm l2 := by
  have e1 : Exec O ((.doRefit rng1, .unit) :: h) s1 := .step n1 he trivial (by simp [call, h1])
  have e2 : Exec O ((.doRefit rng2, .unit) :: h) s2 := .step n2 he trivial (by simp [call, h2])
  obtain ⟨m1, hh1, -⟩ := c04_height O e1 trivial
  obtain ⟨m2, hh2, -⟩ := c04_height O e2 trivial
  rcases c07_query O enc hen hfat f hm e1 hd hu trivial hh1 with ⟨⟨a, a1, a2⟩, -⟩ | ⟨-, h, -⟩
  case inr => rw [hq1] at h; cases h
  rcases c07_query O enc hen hfat f hm e2 hd hu trivial hh2 with ⟨⟨b, b1, b2⟩, -⟩ | ⟨-, h, -⟩
  case inr => rw [hq2] at h; cases h
  rw [hq1] at a1; cases a1
  rw [hq2] at b1; cases b1
  have : exactIndices O f s1 = exactIndices O f s2 := by
    unfold exactIndices
    rw [(c13_rotation_values O he h1 h2).1]
  rw [this] at a2
  exact a2.trans b2.symm

/-- C14: `remove(i)` on an index that `value_index` maps to `None` returns `None` and changes nothing
at all. -/
theorem c14_remove_nonleaf (s : Dbvt V B) (i : Nat) (hi : s.valueIndex i = .ok none) :
    s.remove i = .ok (none, s) := by
  simp only [Dbvt.valueIndex, Res.bind_eq_ok] at hi
  obtain ⟨n, hn, hk⟩ := hi
  cases hx : s.nodes[i]? with
  | none => simp [nodeAt, hx] at hn
  | some m =>
    rw [nodeAt_some hx] at hn
    simp at hn; subst hn
    refine remove_nonleaf hx ?_
    rintro l rfl
    simp at hk

/-- C14: `update_node(i, v)` on such an index only flags it; all values stay. -/
theorem c14_update_nonleaf (s : Dbvt V B) (i : Nat) (v : V) (hi : s.valueIndex i = .ok none) :
    s.updateNode i v = .ok { s with updated := s.updated ++ [i] } := by
  simp only [Dbvt.valueIndex, Res.bind_eq_ok] at hi
  obtain ⟨n, hn, hk⟩ := hi
  simp only [Dbvt.updateNode, hn, Res.bind_ok]
  cases n with
  | leaf l => simp at hk
  | branch b => rfl
  | nil => rfl

/-- Index 2 of the demo tree is a branch. -/
example : ∃ h s, Exec demo h s ∧ s.valueIndex 2 = .ok none ∧ s.values.length = 3 := by
  have hr : ∃ h s, runCalls demo 0 [.insert (0, 1), .insert (10, 11), .insert (4, 5)] [] Dbvt.new = some (h, s) ∧
      s.valueIndex 2 = .ok none ∧ s.values.length = 3 := ⟨_, _, rfl, rfl, rfl⟩
  obtain ⟨h, s, hr, hne⟩ := hr
  exact ⟨h, s, exec_of_run (by simp) .new hr, hne⟩

end Verif.Dbvt
