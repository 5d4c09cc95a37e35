import Verif.Primitive.Polygon
/-!
# Hill climbing on convex polygons with ten or more vertices: C50
-/
namespace Verif.Primitive
open Verif Verif.Geom
set_option linter.unusedSectionVars false
variable {K : Type} [Field K] [LinearOrder K]

/-! ## Indices on the cycle -/

/-- `k` steps from `s`, forwards or backwards, on a cycle of `n` -/
def posn (n s : Nat) (bwd : Bool) (k : Nat) : Nat :=
  if bwd then (if k ≤ s then s - k else s + n - k) else (if s + k < n then s + k else s + k - n)

/-- the increment `add` -/
def stepOf (bwd : Bool) : Int := if bwd then -1 else 1

theorem posn_lt {n s k : Nat} {bwd : Bool} (hs : s < n) (hk : k ≤ n) : posn n s bwd k < n := by unfold posn; split <;> split <;> omega
theorem posn_zero {n s : Nat} {bwd : Bool} (hs : s < n) : posn n s bwd 0 = s := by unfold posn; split <;> split <;> omega
theorem posn_n {n s : Nat} {bwd : Bool} (hs : s < n) : posn n s bwd n = s := by unfold posn; split <;> split <;> omega
theorem posn_inj {n s k l : Nat} {bwd : Bool} (hs : s < n) (hk : k < n) (hl : l < n) (h : posn n s bwd k = posn n s bwd l) : k = l := by
  unfold posn at h; split at h <;> split at h <;> split at h <;> omega
theorem posn_surj {n s : Nat} (bwd : Bool) (hs : s < n) {m : Nat} (hm : m < n) : ∃ k, k < n ∧ posn n s bwd k = m := by
  cases bwd
  · by_cases h : s ≤ m
    · exact ⟨m - s, by omega, by simp only [posn, Bool.false_eq_true, if_false]; split <;> omega⟩
    · exact ⟨m + n - s, by omega, by simp only [posn, Bool.false_eq_true, if_false]; split <;> omega⟩
  · by_cases h : m ≤ s
    · exact ⟨s - m, by omega, by simp only [posn, if_true]; split <;> omega⟩
    · exact ⟨s + n - m, by omega, by simp only [posn, if_true]; split <;> omega⟩

/-- dot product of the vertex with number `k` -/
def dotAt (vs : List (V2 K)) (d : V2 K) (k : Nat) : K := (vs.getD k 0).dot d

theorem getD_eq {vs : List (V2 K)} {k : Nat} (hk : k < vs.length) : vs[k]? = some (vs.getD k 0) := by
  rw [List.getElem?_eq_getElem hk, List.getD_eq_getElem?_getD, List.getElem?_eq_getElem hk]; rfl

theorem dotIndex_step {vs : List (V2 K)} (d : V2 K) {s k : Nat} (bwd : Bool) (h2 : 2 ≤ vs.length) (hs : s < vs.length) (hk : k < vs.length) :
    dotIndex vs ((posn vs.length s bwd k : Nat) + stepOf bwd) d = .ok (dotAt vs d (posn vs.length s bwd (k + 1))) := by
  have h1 := posn_lt (bwd := bwd) hs (show k + 1 ≤ vs.length by omega)
  have key : ∃ i : Int, i = (posn vs.length s bwd k : Nat) + stepOf bwd ∧
      ((i = vs.length ∧ posn vs.length s bwd (k + 1) = 0) ∨ (i = -1 ∧ posn vs.length s bwd (k + 1) = vs.length - 1) ∨
       (0 ≤ i ∧ i < vs.length ∧ i.toNat = posn vs.length s bwd (k + 1))) := by
    refine ⟨_, rfl, ?_⟩
    unfold posn stepOf
    cases bwd <;> simp only [Bool.false_eq_true, if_false, if_true] <;> split <;> split <;> omega
  obtain ⟨i, hi, hc⟩ := key
  rw [← hi]
  unfold dotIndex
  rcases hc with ⟨c1, c2⟩ | ⟨c1, c2⟩ | ⟨c1, c2, c3⟩
  · rw [if_pos c1, c2, getD_eq (show 0 < vs.length by omega)]; rfl
  · rw [if_neg (by omega), if_pos c1, c2, getD_eq (show vs.length - 1 < vs.length by omega)]; rfl
  · rw [if_neg (by omega), if_neg (by omega), if_neg (by omega), c3, getD_eq h1]; rfl

theorem wrapIndex_cases (n : Nat) (i : Int) : (i = n ∧ wrapIndex n i = 0) ∨ (i ≠ n ∧ i = -1 ∧ wrapIndex n i = n - 1) ∨ (i ≠ n ∧ i ≠ -1 ∧ wrapIndex n i = i) := by
  unfold wrapIndex
  by_cases h : i = n
  · simp [h]
  · by_cases h1 : i = -1
    · refine Or.inr (Or.inl ⟨h, h1, ?_⟩)
      simp only [if_neg h, if_pos h1]
    · refine Or.inr (Or.inr ⟨h, h1, ?_⟩)
      simp only [if_neg h, if_neg h1]

theorem wrapIndex_step {n s k : Nat} (bwd : Bool) (hs : s < n) (hk : k < n) (hn : 2 ≤ n) :
    wrapIndex n ((posn n s bwd k : Nat) + stepOf bwd) = (posn n s bwd (k + 1) : Nat) := by
  have h := wrapIndex_cases n ((posn n s bwd k : Nat) + stepOf bwd)
  generalize wrapIndex n ((posn n s bwd k : Nat) + stepOf bwd) = w at h
  unfold posn stepOf at h
  unfold posn
  cases bwd <;> simp only [Bool.false_eq_true, if_false, if_true] at h ⊢ <;> split at h <;> split <;> omega

/-! ## The loop -/

/-- dot product `k` steps from the start -/
def walk (vs : List (V2 K)) (d : V2 K) (s : Nat) (bwd : Bool) (k : Nat) : K := dotAt vs d (posn vs.length s bwd k)
/-- the value of `current_dot` when `index` is `k` steps from the start: one behind in the first round -/
def curAt (g : Nat → K) (k : Nat) : K := if k = 1 then g 0 else g k
/-- the value of `previous_dot` when `index` is `k` steps from the start -/
def prevAt (g : Nat → K) (n k : Nat) : K := if k = 1 then g (n - 1) else if k = 2 then g 0 else g (k - 1)
/-- the loop stops `k` steps from the start -/
def Stops (g : Nat → K) (n k : Nat) : Prop := prevAt g n k < curAt g k ∧ g (k + 1) < curAt g k

theorem cur_succ (g : Nat → K) {k : Nat} (hk : 1 ≤ k) : curAt g (k + 1) = g (k + 1) := by unfold curAt; split <;> [omega; rfl]
theorem prev_succ (g : Nat → K) (n : Nat) {k : Nat} (hk : 1 ≤ k) : prevAt g n (k + 1) = curAt g k := by
  unfold prevAt curAt
  by_cases h : k = 1
  · subst h; simp
  · have h1 : ¬ k + 1 = 1 := by omega
    have h2 : ¬ k + 1 = 2 := by omega
    simp only [h1, h2, h, if_false, Nat.add_sub_cancel]

theorem climbLoop_reach (vs : List (V2 K)) (d : V2 K) (s : Nat) (bwd : Bool) (hs : s < vs.length) (h2 : 2 ≤ vs.length) (m : Nat) (hm : m ≤ vs.length)
    (hstop : m = vs.length ∨ Stops (walk vs d s bwd) vs.length m) :
    ∀ (j k fuel : Nat), m = k + j → 1 ≤ k → vs.length - k < fuel → (∀ i, k ≤ i → i < m → ¬ Stops (walk vs d s bwd) vs.length i) →
      climbLoop vs d s (stepOf bwd) fuel (posn vs.length s bwd k : Nat) (prevAt (walk vs d s bwd) vs.length k) (curAt (walk vs d s bwd) k) =
        .ok (vs.getD (posn vs.length s bwd m) 0) := by
  intro j
  induction j with
  | zero =>
    intro k fuel hmk hk1 hf hno
    simp only [add_zero] at hmk
    subst hmk
    obtain ⟨fuel, rfl⟩ : ∃ f, fuel = f + 1 := ⟨fuel - 1, by omega⟩
    have hlt := posn_lt (bwd := bwd) hs hm
    have hget := getD_eq hlt
    unfold climbLoop
    by_cases hn : m = vs.length
    · have hz := posn_n (bwd := bwd) hs
      rw [hn, hz, if_pos rfl]
      rw [hn, hz] at hget
      simp only [Int.toNat_natCast, hget, Res.ofOption_some]
    · have hne : ¬ ((posn vs.length s bwd m : Nat) : Int) = s := by
        intro e
        have e' : posn vs.length s bwd m = posn vs.length s bwd 0 := by rw [posn_zero hs]; exact_mod_cast e
        have := posn_inj hs (by omega) (by omega) e'
        omega
      rw [if_neg hne, dotIndex_step d bwd h2 hs (by omega)]
      obtain ⟨s1, s2⟩ := hstop.resolve_left hn
      simp only [Res.bind_ok]
      rw [if_pos ⟨s1, s2⟩]
      simp only [Int.toNat_natCast, hget, Res.ofOption_some]
  | succ j ih =>
    intro k fuel hmk hk1 hf hno
    obtain ⟨fuel, rfl⟩ : ∃ f, fuel = f + 1 := ⟨fuel - 1, by omega⟩
    unfold climbLoop
    have hne : ¬ ((posn vs.length s bwd k : Nat) : Int) = s := by
      intro e
      have e' : posn vs.length s bwd k = posn vs.length s bwd 0 := by rw [posn_zero hs]; exact_mod_cast e
      have := posn_inj hs (by omega) (by omega) e'
      omega
    rw [if_neg hne, dotIndex_step d bwd h2 hs (by omega)]
    simp only [Res.bind_ok]
    rw [if_neg (fun hc => hno k le_rfl (by omega) ⟨hc.1, hc.2⟩), wrapIndex_step bwd hs (by omega) h2]
    have := ih (k + 1) fuel (by omega) (by omega) (by omega) (fun i hi him => hno i (by omega) him)
    rw [prev_succ _ _ hk1, cur_succ _ hk1] at this
    exact this

/-- there is a first stop, or none -/
theorem first_stop (P : Nat → Prop) (n : Nat) (hn : 1 ≤ n) : ∃ m, 1 ≤ m ∧ m ≤ n ∧ (m = n ∨ P m) ∧ ∀ i, 1 ≤ i → i < m → ¬ P i := by
  induction n with
  | zero => omega
  | succ n ih =>
    by_cases h0 : n = 0
    · exact ⟨1, le_rfl, by omega, Or.inl (by omega), by intro i hi hi2; omega⟩
    · obtain ⟨m, h1, h2, h3, h4⟩ := ih (by omega)
      by_cases hp : P m
      · exact ⟨m, h1, by omega, Or.inr hp, h4⟩
      · have hmn : m = n := h3.resolve_right hp
        refine ⟨n + 1, by omega, le_rfl, Or.inl rfl, ?_⟩
        intro i hi hi2
        by_cases hin : i = n
        · rw [hin, ← hmn]; exact hp
        · exact h4 i hi (by omega)

/-- where the climb starts -/
def startOf (vs : List (V2 K)) (d : V2 K) : Nat := if dotAt vs d 0 < 0 then vs.length / 2 else 0
/-- the direction of the climb -/
def bwdOf (vs : List (V2 K)) (d : V2 K) : Bool :=
  decide (dotAt vs d (startOf vs d) < walk vs d (startOf vs d) true 1 ∧ walk vs d (startOf vs d) false 1 < walk vs d (startOf vs d) true 1)

theorem start_lt (vs : List (V2 K)) (d : V2 K) (h : 2 ≤ vs.length) : startOf vs d < vs.length := by unfold startOf; split <;> omega

theorem climb_eq (vs : List (V2 K)) (d : V2 K) (h : 3 ≤ vs.length) : climb vs d =
    if startOf vs d = 0 ∧ walk vs d (startOf vs d) true 1 < dotAt vs d (startOf vs d) ∧ walk vs d (startOf vs d) false 1 < dotAt vs d (startOf vs d) then
      .ok (vs.getD 0 0)
    else climbLoop vs d (startOf vs d) (stepOf (bwdOf vs d)) (vs.length + 1) (posn vs.length (startOf vs d) (bwdOf vs d) 1 : Nat)
      (prevAt (walk vs d (startOf vs d) (bwdOf vs d)) vs.length 1) (curAt (walk vs d (startOf vs d) (bwdOf vs d)) 1) := by
  have hs := start_lt vs d (by omega)
  have g0 := getD_eq (show 0 < vs.length by omega)
  have e1 : (if (vs.getD 0 0).dot d < 0 then ((vs.length / 2 : Nat) : Int) else 0) = (startOf vs d : Nat) := by
    unfold startOf dotAt; split <;> rfl
  have e2 : (if (vs.getD 0 0).dot d < 0 then dotIndex vs (startOf vs d : Nat) d else Res.ok ((vs.getD 0 0).dot d)) = .ok (dotAt vs d (startOf vs d)) := by
    by_cases hc : (vs.getD 0 0).dot d < 0
    · rw [if_pos hc]
      unfold dotIndex
      rw [if_neg (by omega), if_neg (by omega), if_neg (by omega), Int.toNat_natCast, getD_eq hs]; rfl
    · rw [if_neg hc]
      have : startOf vs d = 0 := if_neg hc
      rw [this]; rfl
  have z1 := posn_zero (bwd := true) hs
  have z2 := posn_zero (bwd := false) hs
  have l := dotIndex_step d true (by omega) hs (show 0 < vs.length by omega)
  have r := dotIndex_step d false (by omega) hs (show 0 < vs.length by omega)
  rw [z1] at l; rw [z2] at r
  have l' : dotIndex vs ((startOf vs d : Nat) - 1) d = .ok (walk vs d (startOf vs d) true 1) := l
  have r' : dotIndex vs ((startOf vs d : Nat) + 1) d = .ok (walk vs d (startOf vs d) false 1) := r
  have w : ∀ b, wrapIndex vs.length ((startOf vs d : Nat) + stepOf b) = (posn vs.length (startOf vs d) b 1 : Nat) := by
    intro b
    have := wrapIndex_step b hs (show 0 < vs.length by omega) (by omega)
    rwa [posn_zero hs] at this
  have p1 : ∀ b, prevAt (walk vs d (startOf vs d) b) vs.length 1 = walk vs d (startOf vs d) (!b) 1 := by
    intro b
    have : posn vs.length (startOf vs d) b (vs.length - 1) = posn vs.length (startOf vs d) (!b) 1 := by
      cases b <;> simp only [posn, Bool.not_false, Bool.not_true, Bool.false_eq_true, if_false, if_true] <;> split <;> split <;> omega
    simp [prevAt, walk, this]
  have c1 : ∀ b, curAt (walk vs d (startOf vs d) b) 1 = dotAt vs d (startOf vs d) := by
    intro b; simp [curAt, walk, posn_zero hs]
  unfold climb
  simp only [g0, Res.ofOption_some, Res.bind_ok]
  rw [e1]
  have e3 : ∀ f : K → Res (V2 K), (if (vs.getD 0 0).dot d < 0 then (dotIndex vs (startOf vs d : Nat) d >>= f) else f ((vs.getD 0 0).dot d)) =
      f (dotAt vs d (startOf vs d)) := by
    intro f
    by_cases hc : (vs.getD 0 0).dot d < 0
    · rw [if_pos hc] at e2; rw [if_pos hc, e2]; rfl
    · rw [if_neg hc] at e2; rw [if_neg hc, Res.ok.inj e2]
  refine (e3 (fun maxDot => _)).trans ?_
  simp only [l', r']
  simp only [Res.bind_ok, Res.pure_eq]
  have hiff : ((startOf vs d : Nat) : Int) = 0 ↔ startOf vs d = 0 := by omega
  simp only [hiff, gt_iff_lt]
  split
  · rfl
  · by_cases hb : dotAt vs d (startOf vs d) < walk vs d (startOf vs d) true 1 ∧ walk vs d (startOf vs d) false 1 < walk vs d (startOf vs d) true 1
    · have hbw : bwdOf vs d = true := by unfold bwdOf; exact decide_eq_true hb
      rw [if_pos hb, if_pos hb, hbw, p1, c1, ← w true]; rfl
    · have hbw : bwdOf vs d = false := by unfold bwdOf; exact decide_eq_false hb
      rw [if_neg hb, if_neg hb, hbw, p1, c1, ← w false]; rfl

/-- C50, totality: the climb ends, never indexes out of bounds, and returns a vertex. -/
theorem climb_vertex (vs : List (V2 K)) (d : V2 K) (h : 3 ≤ vs.length) : ∃ v, climb vs d = .ok v ∧ v ∈ vs := by
  have hs := start_lt vs d (by omega)
  have mem : ∀ k, k < vs.length → vs.getD k 0 ∈ vs := fun k hk => List.mem_of_getElem? (getD_eq hk)
  rw [climb_eq vs d h]
  split
  · exact ⟨_, rfl, mem 0 (by omega)⟩
  · obtain ⟨m, m1, m2, m3, m4⟩ := first_stop (Stops (walk vs d (startOf vs d) (bwdOf vs d)) vs.length) vs.length (by omega)
    rw [climbLoop_reach vs d _ _ hs (by omega) m m2 m3 (m - 1) 1 _ (by omega) le_rfl (by omega) m4]
    exact ⟨_, rfl, mem _ (posn_lt hs m2)⟩

/-! ## Unimodality -/

/-- no two alternating pairs, one pair above the other -/
def Alt (n : Nat) (D : Nat → K) : Prop := ∀ a b c d, a < b → b < c → c < d → d < n →
  ¬ (D b < D a ∧ D d < D a ∧ D b < D c ∧ D d < D c) ∧ ¬ (D a < D b ∧ D c < D b ∧ D a < D d ∧ D c < D d)

theorem Alt.posn {n : Nat} {D : Nat → K} (h : Alt n D) (s : Nat) (bwd : Bool) (hs : s < n) : Alt n fun k => D (posn n s bwd k) := by
  intro a b c d hab hbc hcd hdn
  simp only []
  generalize hpa : Verif.Primitive.posn n s bwd a = pa
  generalize hpb : Verif.Primitive.posn n s bwd b = pb
  generalize hpc : Verif.Primitive.posn n s bwd c = pc
  generalize hpd : Verif.Primitive.posn n s bwd d = pd
  have key : (pd < n ∧ pa < pb ∧ pb < pc ∧ pc < pd) ∨ (pc < n ∧ pd < pa ∧ pa < pb ∧ pb < pc) ∨ (pb < n ∧ pc < pd ∧ pd < pa ∧ pa < pb) ∨
      (pa < n ∧ pb < pc ∧ pc < pd ∧ pd < pa) ∨
      (pa < n ∧ pd < pc ∧ pc < pb ∧ pb < pa) ∨ (pd < n ∧ pc < pb ∧ pb < pa ∧ pa < pd) ∨ (pc < n ∧ pb < pa ∧ pa < pd ∧ pd < pc) ∨
      (pb < n ∧ pa < pd ∧ pd < pc ∧ pc < pb) := by
    cases bwd
    · have f : ∀ k, k < n → (s + k < n ∧ Verif.Primitive.posn n s false k = s + k) ∨ (n ≤ s + k ∧ Verif.Primitive.posn n s false k = s + k - n) := by
        intro k hk; simp only [Verif.Primitive.posn, Bool.false_eq_true, if_false]; split <;> omega
      have fa := f a (by omega)
      have fb := f b (by omega)
      have fc := f c (by omega)
      have fd := f d (by omega)
      rw [hpa] at fa; rw [hpb] at fb; rw [hpc] at fc; rw [hpd] at fd
      clear hpa hpb hpc hpd f h
      rcases fd with fd | fd
      · exact Or.inl (by omega)
      rcases fc with fc | fc
      · exact Or.inr (Or.inl (by omega))
      rcases fb with fb | fb
      · exact Or.inr (Or.inr (Or.inl (by omega)))
      rcases fa with fa | fa
      · exact Or.inr (Or.inr (Or.inr (Or.inl (by omega))))
      · exact Or.inl (by omega)
    · have f : ∀ k, k < n → (k ≤ s ∧ Verif.Primitive.posn n s true k = s - k) ∨ (s < k ∧ Verif.Primitive.posn n s true k = s + n - k) := by
        intro k hk; simp only [Verif.Primitive.posn, if_true]; split <;> omega
      have fa := f a (by omega)
      have fb := f b (by omega)
      have fc := f c (by omega)
      have fd := f d (by omega)
      rw [hpa] at fa; rw [hpb] at fb; rw [hpc] at fc; rw [hpd] at fd
      clear hpa hpb hpc hpd f h
      rcases fd with fd | fd
      · exact Or.inr (Or.inr (Or.inr (Or.inr (Or.inl (by omega)))))
      rcases fc with fc | fc
      · exact Or.inr (Or.inr (Or.inr (Or.inr (Or.inr (Or.inl (by omega))))))
      rcases fb with fb | fb
      · exact Or.inr (Or.inr (Or.inr (Or.inr (Or.inr (Or.inr (Or.inl (by omega)))))))
      rcases fa with fa | fa
      · exact Or.inr (Or.inr (Or.inr (Or.inr (Or.inr (Or.inr (Or.inr (by omega)))))))
      · exact Or.inr (Or.inr (Or.inr (Or.inr (Or.inl (by omega)))))
  rcases key with ⟨k0, k1, k2, k3⟩ | ⟨k0, k1, k2, k3⟩ | ⟨k0, k1, k2, k3⟩ | ⟨k0, k1, k2, k3⟩ | ⟨k0, k1, k2, k3⟩ | ⟨k0, k1, k2, k3⟩ | ⟨k0, k1, k2, k3⟩ | ⟨k0, k1, k2, k3⟩
  · exact h _ _ _ _ k1 k2 k3 k0
  all_goals
    have := h _ _ _ _ k1 k2 k3 k0
    obtain ⟨h1, h2⟩ := this
    constructor
    · rintro ⟨x1, x2, x3, x4⟩
      first
        | exact h1 ⟨by assumption, by assumption, by assumption, by assumption⟩
        | exact h2 ⟨by assumption, by assumption, by assumption, by assumption⟩
    · rintro ⟨x1, x2, x3, x4⟩
      first
        | exact h1 ⟨by assumption, by assumption, by assumption, by assumption⟩
        | exact h2 ⟨by assumption, by assumption, by assumption, by assumption⟩

variable [IsStrictOrderedRing K]

/-- two vertices of a convex quadrilateral cannot both be above the other two when they alternate -/
theorem convex_alt {vs : List (V2 K)} (h : ConvexCcw vs) (d : V2 K) : Alt vs.length (dotAt vs d) := by
  intro a b c e hab hbc hce hen
  have A := h.2 a b c _ _ _ hab hbc (getD_eq (by omega)) (getD_eq (by omega)) (getD_eq (by omega))
  have B := h.2 a b e _ _ _ hab (by omega) (getD_eq (by omega)) (getD_eq (by omega)) (getD_eq (by omega))
  have C := h.2 a c e _ _ _ (by omega) hce (getD_eq (by omega)) (getD_eq (by omega)) (getD_eq (by omega))
  have E := h.2 b c e _ _ _ hbc hce (getD_eq (by omega)) (getD_eq (by omega)) (getD_eq (by omega))
  simp only [dotAt]
  generalize vs.getD a 0 = pa at *
  generalize vs.getD b 0 = pb at *
  generalize vs.getD c 0 = pc at *
  generalize vs.getD e 0 = pe at *
  have sum : orient pb pc pe + orient pa pb pe = orient pa pc pe + orient pa pb pc := by simp only [orient]; ring
  have id : orient pb pc pe * pa.dot d + orient pa pb pe * pc.dot d = orient pa pc pe * pb.dot d + orient pa pb pc * pe.dot d := by
    simp only [orient, V2.dot]; ring
  generalize orient pb pc pe = wa at *
  generalize orient pa pb pe = wc at *
  generalize orient pa pc pe = wb at *
  generalize orient pa pb pc = we at *
  generalize pa.dot d = da at *
  generalize pb.dot d = db at *
  generalize pc.dot d = dc at *
  generalize pe.dot d = de at *
  constructor
  · rintro ⟨x1, x2, x3, x4⟩
    have m1 : max db de < da := max_lt x1 x2
    have m2 : max db de < dc := max_lt x3 x4
    have n1 := le_max_left db de
    have n2 := le_max_right db de
    generalize max db de = M at *
    have := mul_lt_mul_of_pos_left m1 E
    have := mul_lt_mul_of_pos_left m2 B
    have := mul_le_mul_of_nonneg_left n1 C.le
    have := mul_le_mul_of_nonneg_left n2 A.le
    have : (wa + wc) * M = (wb + we) * M := by rw [sum]
    linarith
  · rintro ⟨x1, x2, x3, x4⟩
    have m1 : max da dc < db := max_lt x1 x2
    have m2 : max da dc < de := max_lt x3 x4
    have n1 := le_max_left da dc
    have n2 := le_max_right da dc
    generalize max da dc = M at *
    have := mul_lt_mul_of_pos_left m1 C
    have := mul_lt_mul_of_pos_left m2 A
    have := mul_le_mul_of_nonneg_left n1 E.le
    have := mul_le_mul_of_nonneg_left n2 B.le
    have : (wa + wc) * M = (wb + we) * M := by rw [sum]
    linarith

/-- With a strict maximum `m` steps from the start: the loop stops there when `m ≥ 2`, and nowhere before; from the third step on it stops at
no other place. -/
theorem stops_iff {n : Nat} {g : Nat → K} (h : Alt n g) (hn : 4 ≤ n) (hgn : g n = g 0) {m : Nat} (hm : m < n) (hmax : ∀ k, k < n → k ≠ m → g k < g m) :
    (2 ≤ m → ¬ Stops g n 1) ∧ (3 ≤ m → ¬ Stops g n 2) ∧ (2 ≤ m → Stops g n m) ∧ (∀ k, 3 ≤ k → k < n → Stops g n k → k = m) := by
  refine ⟨?_, ?_, ?_, ?_⟩
  · rintro m2 ⟨s1, s2⟩
    simp only [prevAt, curAt, if_true] at s1 s2
    have m0 := hmax 0 (by omega) (by omega)
    have hm1 : m ≠ n - 1 := by rintro rfl; exact absurd m0 (not_lt.2 s1.le)
    have hm2 : m ≠ 2 := by rintro rfl; exact absurd m0 (not_lt.2 s2.le)
    exact (h 0 2 m (n - 1) (by omega) (by omega) (by omega) (by omega)).1 ⟨s2, s1, s2.trans m0, s1.trans m0⟩
  · rintro m3 ⟨s1, s2⟩
    simp [prevAt, curAt] at s1 s2
    have m2 := hmax 2 (by omega) (by omega)
    have hm3 : m ≠ 3 := by rintro rfl; exact absurd m2 (not_lt.2 s2.le)
    exact (h 0 2 3 m (by omega) (by omega) (by omega) (by omega)).2 ⟨s1, s2, s1.trans m2, s2.trans m2⟩
  · intro m2
    have hnext : g (m + 1) < g m := by
      by_cases he : m + 1 = n
      · rw [he, hgn]; exact hmax 0 (by omega) (by omega)
      · exact hmax _ (by omega) (by omega)
    have h1 : ¬ m = 1 := by omega
    unfold Stops prevAt curAt
    rw [if_neg h1, if_neg h1]
    refine ⟨?_, hnext⟩
    split
    · exact hmax 0 (by omega) (by omega)
    · exact hmax _ (by omega) (by omega)
  · rintro k k3 kn ⟨s1, s2⟩
    have h1 : ¬ k = 1 := by omega
    have h2 : ¬ k = 2 := by omega
    simp only [prevAt, curAt, h1, h2, if_false] at s1 s2
    by_contra hkm
    have mk := hmax k kn hkm
    have hm1 : m ≠ k - 1 := by rintro rfl; exact absurd mk (not_lt.2 s1.le)
    by_cases hl : k + 1 = n
    · rw [hl, hgn] at s2
      have hm0 : m ≠ 0 := by rintro rfl; exact absurd mk (not_lt.2 s2.le)
      exact (h 0 m (k - 1) k (by omega) (by omega) (by omega) (by omega)).2 ⟨s2.trans mk, s1.trans mk, s2, s1⟩
    · have hm2 : m ≠ k + 1 := by rintro rfl; exact absurd mk (not_lt.2 s2.le)
      rcases lt_or_gt_of_ne hkm with hlt | hlt
      · exact (h (k - 1) k (k + 1) m (by omega) (by omega) (by omega) (by omega)).2 ⟨s1, s2, s1.trans mk, s2.trans mk⟩
      · exact (h m (k - 1) k (k + 1) (by omega) (by omega) (by omega) (by omega)).1 ⟨s1.trans mk, s2.trans mk, s1, s2⟩

/-! ## C50 -/

/-- Specification: vertex number `m` is the only vertex furthest along `d`. -/
def TopVertex (vs : List (V2 K)) (d : V2 K) (m : Nat) (v : V2 K) : Prop :=
  vs[m]? = some v ∧ ∀ (k : Nat) (w : V2 K), k ≠ m → vs[k]? = some w → w.dot d < v.dot d

/-- Specification: the vertex at which the code starts to climb: the first one, or the one halfway round if the first points away from `d`. -/
def climbStart (vs : List (V2 K)) (d : V2 K) : Nat := if (vs.getD 0 0).dot d < 0 then vs.length / 2 else 0

theorem climb_top {vs : List (V2 K)} (h : ConvexCcw vs) (hn : 4 ≤ vs.length) (d : V2 K) {M : Nat} {v : V2 K} (hM : TopVertex vs d M v) :
    (M = 0 → startOf vs d = 0 → climb vs d = .ok v) ∧
    (M ≠ startOf vs d → M ≠ posn vs.length (startOf vs d) false 1 → M ≠ posn vs.length (startOf vs d) true 1 → climb vs d = .ok v) ∧
    (M = startOf vs d → startOf vs d ≠ 0 → climb vs d = .ok (vs.getD (M + 1) 0)) := by
  have hs := start_lt vs d (by omega)
  obtain ⟨hv, hmax⟩ := hM
  have hMn : M < vs.length := (List.getElem?_eq_some_iff.1 hv).1
  have hvM : v = vs.getD M 0 := by have := getD_eq hMn; rw [hv] at this; exact Option.some.inj this
  have top : ∀ k, k < vs.length → k ≠ M → dotAt vs d k < dotAt vs d M := by
    intro k hk hkM; have := hmax k _ hkM (getD_eq hk); rw [hvM] at this; exact this
  have neigh : ∀ b, posn vs.length (startOf vs d) b 1 ≠ startOf vs d := by
    intro b; unfold posn; split <;> split <;> omega
  have nlt : ∀ b, posn vs.length (startOf vs d) b 1 < vs.length := fun b => posn_lt hs (by omega)
  refine ⟨?_, ?_, ?_⟩
  · intro m0 s0
    subst m0
    rw [climb_eq vs d (by omega), if_pos, hvM]
    refine ⟨s0, ?_, ?_⟩ <;> rw [s0] <;> refine top _ (by have := nlt true; have := nlt false; rw [s0] at *; assumption) ?_ <;>
      (have h1 := neigh true; have h2 := neigh false; rw [s0] at h1 h2; assumption)
  · intro h1 h2 h3
    rw [climb_eq vs d (by omega), if_neg]
    · obtain ⟨m, hm, hpm⟩ := posn_surj (bwdOf vs d) hs hMn
      have halt : Alt vs.length (walk vs d (startOf vs d) (bwdOf vs d)) := (convex_alt h d).posn _ _ hs
      have hgn : walk vs d (startOf vs d) (bwdOf vs d) vs.length = walk vs d (startOf vs d) (bwdOf vs d) 0 := by
        simp only [walk, posn_n hs, posn_zero hs]
      have hgmax : ∀ k, k < vs.length → k ≠ m → walk vs d (startOf vs d) (bwdOf vs d) k < walk vs d (startOf vs d) (bwdOf vs d) m := by
        intro k hk hkm
        simp only [walk, hpm]
        exact top _ (posn_lt hs hk.le) fun e => hkm (posn_inj hs hk hm (by rw [e, hpm]))
      obtain ⟨a1, a2, a3, a4⟩ := stops_iff halt hn hgn hm hgmax
      have m2 : 2 ≤ m := by
        by_contra hc
        have : m = 0 ∨ m = 1 := by omega
        rcases this with rfl | rfl
        · rw [posn_zero hs] at hpm; exact h1 hpm.symm
        · cases hb : bwdOf vs d <;> rw [hb] at hpm
          · exact h2 hpm.symm
          · exact h3 hpm.symm
      rw [climbLoop_reach vs d _ _ hs (by omega) m hm.le (Or.inr (a3 m2)) (m - 1) 1 _ (by omega) le_rfl (by omega), hpm, hvM]
      intro i i1 im
      by_cases e1 : i = 1
      · rw [e1]; exact a1 m2
      · by_cases e2 : i = 2
        · rw [e2]; exact a2 (by omega)
        · intro hst; have := a4 i (by omega) (by omega) hst; omega
    · rintro ⟨s0, x1, x2⟩
      -- the start would be a local maximum
      have halt : Alt vs.length (walk vs d (startOf vs d) false) := (convex_alt h d).posn _ _ hs
      obtain ⟨m, hm, hpm⟩ := posn_surj false hs hMn
      have ht : walk vs d (startOf vs d) false m = dotAt vs d M := by simp only [walk, hpm]
      have h0 : walk vs d (startOf vs d) false 0 = dotAt vs d (startOf vs d) := by simp only [walk, posn_zero hs]
      have hl : walk vs d (startOf vs d) true 1 = walk vs d (startOf vs d) false (vs.length - 1) := by
        have : posn vs.length (startOf vs d) false (vs.length - 1) = posn vs.length (startOf vs d) true 1 := by
          simp only [posn, Bool.false_eq_true, if_false, if_true]; split <;> split <;> omega
        simp only [walk, this]
      have m0 : m ≠ 0 := by rintro rfl; rw [posn_zero hs] at hpm; exact h1 hpm.symm
      have m1 : m ≠ 1 := by rintro rfl; exact h2 hpm.symm
      have m2 : m ≠ vs.length - 1 := by
        rintro rfl
        apply h3
        rw [← hpm]
        simp only [posn, Bool.false_eq_true, if_false, if_true]; split <;> split <;> omega
      have hsM := top _ hs (Ne.symm h1)
      rw [hl, ← h0] at x1
      rw [← h0] at x2
      rw [← h0, ← ht] at hsM
      exact (halt 0 1 m (vs.length - 1) (by omega) (by omega) (by omega) (by omega)).1 ⟨x2, x1, x2.trans hsM, x1.trans hsM⟩
  · intro hMs s0
    rw [climb_eq vs d (by omega), if_neg (fun hc => s0 hc.1)]
    have x1 : walk vs d (startOf vs d) true 1 < dotAt vs d (startOf vs d) := by
      rw [← hMs]; rw [← hMs] at nlt neigh; exact top _ (nlt true) (neigh true)
    have hb : bwdOf vs d = false := by
      unfold bwdOf; exact decide_eq_false fun hc => absurd hc.1 (not_lt.2 x1.le)
    rw [hb]
    have hstop : Stops (walk vs d (startOf vs d) false) vs.length 1 := by
      have hp : ∀ k, 0 < k → k < vs.length → walk vs d (startOf vs d) false k < walk vs d (startOf vs d) false 0 := by
        intro k k0 kn
        simp only [walk, posn_zero hs]
        rw [← hMs]; rw [← hMs] at hs
        refine top _ (posn_lt hs kn.le) fun e => ?_
        have := posn_inj hs kn (by omega) (e.trans (posn_zero (bwd := false) hs).symm)
        omega
      constructor
      · simp only [prevAt, curAt, if_true]; exact hp _ (by omega) (by omega)
      · simp only [curAt, if_true]; exact hp _ (by omega) (by omega)
    rw [climbLoop_reach vs d _ _ hs (by omega) 1 (by omega) (Or.inr hstop) 0 1 _ (by omega) le_rfl (by omega) (by intro i h1 h2; omega)]
    have : posn vs.length (startOf vs d) false 1 = M + 1 := by
      rw [← hMs]
      have : startOf vs d ≤ vs.length / 2 := by unfold startOf; split <;> omega
      simp only [posn, Bool.false_eq_true, if_false]; split <;> omega
    rw [this]

/-- C50, the part that holds: for a strictly convex polygon of ten or more vertices and a direction with a single furthest vertex, the support
point is that vertex (extreme in the transformed polygon) whenever it is not the vertex where the climb starts or one of its two neighbours,
or is the first vertex and the climb starts there.
Missing: the other start positions (false, `c50_mid_start` and `c50_false`) and directions with two furthest vertices (false, `c50_tie_false`). -/
theorem c50_support_partial (vs : List (V2 K)) (h : ConvexCcw vs) (hn : 10 ≤ vs.length) {T : Tr (V2 K)} (hT : Similar2 T) (d : V2 K)
    (e : V2 K) (he : T.invVector d = some e) (M : Nat) (v : V2 K) (hM : TopVertex vs e M v)
    (hpos : (M = 0 ∧ climbStart vs e = 0) ∨
      (M ≠ climbStart vs e ∧ M ≠ (climbStart vs e + 1) % vs.length ∧ (M + 1) % vs.length ≠ climbStart vs e)) :
    ∃ p, (Polygon.new vs).supportPoint T d = .ok p ∧ p = T.point v ∧ Extreme2 (Image T (Hull2 vs)) d p := by
  obtain ⟨c1, c2, -⟩ := climb_top h (by omega) e hM
  have hMn : M < vs.length := (List.getElem?_eq_some_iff.1 hM.1).1
  have hs := start_lt vs e (by omega)
  have hst : climbStart vs e = startOf vs e := rfl
  rw [hst] at hpos
  have hc : climb vs e = .ok v := by
    rcases hpos with ⟨h1, h2⟩ | ⟨h1, h2, h3⟩
    · exact c1 h1 h2
    · refine c2 h1 ?_ ?_
      · intro e1; apply h2; rw [e1]
        simp only [posn, Bool.false_eq_true, if_false]
        split
        · rw [Nat.mod_eq_of_lt (by omega)]
        · have : startOf vs e + 1 = vs.length := by omega
          rw [this, Nat.mod_self]; omega
      · intro e1; apply h3; rw [e1]
        simp only [posn, if_true]
        split
        · rw [Nat.mod_eq_of_lt (by omega)]; omega
        · have : startOf vs e + vs.length - 1 + 1 = vs.length := by omega
          rw [this, Nat.mod_self]; omega
  have hsup : (Polygon.new vs).supportPoint T d = support (fun _ => v) T d := by
    have hnl : ¬ (Polygon.new vs).vertices.length < 10 := by simp only [Polygon.new]; omega
    have hvs : (Polygon.new vs).vertices = vs := rfl
    unfold Polygon.supportPoint
    rw [if_neg hnl, hvs]
    simp only [he, Res.ofOption_some, Res.bind_ok, hc, Res.pure_eq, support]
  obtain ⟨p, hp, hex⟩ := support_extreme2 (Hull2 vs) (fun _ => v) hT d (by
    intro e' he'
    rw [he] at he'
    cases he'
    refine ⟨.vertex (List.mem_of_getElem? hM.1), fun q hq => hull2_le (fun w hw => ?_) hq⟩
    obtain ⟨k, hk, rfl⟩ := List.getElem_of_mem hw
    have hkk : vs[k]? = some vs[k] := List.getElem?_eq_getElem hk
    by_cases hkM : k = M
    · subst hkM; have := hM.1; rw [hkk] at this; rw [Option.some.inj this]
    · exact (hM.2 k _ hkM hkk).le)
  refine ⟨p, by rw [hsup]; exact hp, ?_, hex⟩
  simp only [support, he, Res.ofOption_some, Res.bind_ok, Res.pure_eq, Res.ok.injEq] at hp
  exact hp.symm

/-- C50 fails on every polygon: if the climb starts halfway round and that vertex is the only furthest one, its successor is returned instead. -/
theorem c50_mid_start (vs : List (V2 K)) (h : ConvexCcw vs) (hn : 10 ≤ vs.length) (d : V2 K) (v w : V2 K)
    (h0 : (vs.getD 0 0).dot d < 0) (hM : TopVertex vs d (vs.length / 2) v) (hw : vs[vs.length / 2 + 1]? = some w) :
    climb vs d = .ok w ∧ w.dot d < v.dot d := by
  obtain ⟨-, -, c3⟩ := climb_top h (by omega) d hM
  have hst : startOf vs d = vs.length / 2 := if_pos h0
  rw [c3 hst.symm (by omega)]
  have : vs.getD (vs.length / 2 + 1) 0 = w := by
    rw [List.getD_eq_getElem?_getD, hw]; rfl
  exact ⟨by rw [this], hM.2 _ w (by omega) hw⟩

/-- C50, totality: with ten or more vertices (in any position) the support point is the image of a vertex; no panic, and the climb ends. -/
theorem c50_vertex (vs : List (V2 K)) (hn : 10 ≤ vs.length) (T : Tr (V2 K)) (d e : V2 K) (he : T.invVector d = some e) :
    ∃ v ∈ vs, (Polygon.new vs).supportPoint T d = .ok (T.point v) := by
  obtain ⟨v, hv, hm⟩ := climb_vertex vs e (by omega)
  refine ⟨v, hm, ?_⟩
  have hnl : ¬ (Polygon.new vs).vertices.length < 10 := by simp only [Polygon.new]; omega
  have hvs : (Polygon.new vs).vertices = vs := rfl
  unfold Polygon.supportPoint
  rw [if_neg hnl, hvs]
  simp only [he, Res.ofOption_some, Res.bind_ok, hv, Res.pure_eq]

/-- twelve points of a circle of radius 5 -/
def dodecagon : List (V2 ℚ) :=
  [⟨5, 0⟩, ⟨4, 3⟩, ⟨3, 4⟩, ⟨0, 5⟩, ⟨-3, 4⟩, ⟨-4, 3⟩, ⟨-5, 0⟩, ⟨-4, -3⟩, ⟨-3, -4⟩, ⟨0, -5⟩, ⟨3, -4⟩, ⟨4, -3⟩]

theorem convexCcw_of_check {vs : List (V2 ℚ)} (h3 : 3 ≤ vs.length)
    (h : ∀ i < vs.length, ∀ j < vs.length, ∀ k < vs.length, i < j → j < k → 0 < orient (vs.getD i 0) (vs.getD j 0) (vs.getD k 0)) : ConvexCcw vs := by
  refine ⟨h3, ?_⟩
  intro i j k a b c hij hjk ha hb hc
  have hk : k < vs.length := (List.getElem?_eq_some_iff.1 hc).1
  have := h i (by omega) j (by omega) k hk hij hjk
  rw [getD_eq (by omega)] at ha hb hc
  cases ha; cases hb; cases hc
  exact this

theorem dodecagon_convex : ConvexCcw dodecagon := convexCcw_of_check (by decide) (by decide +kernel)

/-- C50 as stated is false: direction `(-1, 0)` on the twelve-gon gives `(-4, -3)`, not `(-5, 0)`. -/
theorem c50_false : ∃ (vs : List (V2 ℚ)) (d v w : V2 ℚ), ConvexCcw vs ∧ 10 ≤ vs.length ∧ w ∈ vs ∧
    (Polygon.new vs).supportPoint ⟨id, id, some, some (id, id)⟩ d = .ok v ∧ v.dot d < w.dot d :=
  ⟨dodecagon, ⟨-1, 0⟩, ⟨-4, -3⟩, ⟨-5, 0⟩, dodecagon_convex, by decide, by decide, by decide +kernel, by decide +kernel⟩

/-- C50 is also false for a direction perpendicular to an edge: `(-1, 3)` sees the edge from `(0, 5)` to `(-3, 4)`, but the climb goes all the way
round and returns the vertex where it started. -/
theorem c50_tie_false : ∃ (vs : List (V2 ℚ)) (d v w : V2 ℚ), ConvexCcw vs ∧ 10 ≤ vs.length ∧ w ∈ vs ∧
    (Polygon.new vs).supportPoint ⟨id, id, some, some (id, id)⟩ d = .ok v ∧ v.dot d < w.dot d :=
  ⟨dodecagon, ⟨-1, 3⟩, ⟨-5, 0⟩, ⟨0, 5⟩, dodecagon_convex, by decide, by decide, by decide +kernel, by decide +kernel⟩

/-- the partial theorem applies: direction `(-1, 7)`, furthest vertex `(0, 5)`, climb from halfway round -/
example : TopVertex dodecagon ⟨-1, 7⟩ 3 ⟨0, 5⟩ ∧ climbStart dodecagon ⟨-1, 7⟩ = 6 ∧ climb dodecagon ⟨-1, 7⟩ = .ok ⟨0, 5⟩ := by
  refine ⟨⟨rfl, ?_⟩, by decide +kernel, by decide +kernel⟩
  intro k w hk hw
  have hkn : k < 12 := (List.getElem?_eq_some_iff.1 hw).1
  rw [getD_eq (vs := dodecagon) hkn] at hw
  cases hw
  have : ∀ k < 12, k ≠ 3 → (dodecagon.getD k 0).dot ⟨-1, 7⟩ < (⟨0, 5⟩ : V2 ℚ).dot ⟨-1, 7⟩ := by decide +kernel
  exact this k hkn hk

end Verif.Primitive
