import Verif.Scene.MatrixPlanes
import Verif.Scene.F32Queries
/-!
# C125: a tree of boxes culled by a projection matrix

The culling query with the frustum that `Frustum::from_matrix4` makes of a matrix, on a tree of boxes built by insertions, in `f64` and `f32`: compared with the exact clip volume of the matrix, with
the error of C125 for a single box, because unions of boxes are exact.
-/
namespace Verif.Scene
open Verif Geom Dbvt Minkowski BroadPhase
open Classical
open Verif.Dbvt.B32 (F32 binary32 Rep32)
set_option linter.unusedSectionVars false
noncomputable section
variable {V S : Type} {M N W : ℝ}

/-- What a culling query with the clip volume of a matrix returns, up to `e`: no value more often than it is stored; every value with a point of its box inside all six planes by `e`; `In` only of
boxes inside all planes up to `e`; never `Out`, and no value whose box is outside one of the planes by more than `e`; `In` of every box inside all of them by more than `e`. -/
def CulledM (m : M4 ℝ) (box : V → Aabb3 ℝ) (e : ℝ) (vs : List V) (l : List (V × Relation)) : Prop :=
  (l.map Prod.fst).Subperm vs ∧
  (∀ v ∈ vs, (∃ p, (box v).Mem p ∧ ∀ f ∈ M4.forms m, e ≤ V4.depth f p) → ∃ r, (v, r) ∈ l) ∧
  (∀ v, (v, Relation.In) ∈ l → ∀ p, (box v).Mem p → ∀ f ∈ M4.forms m, -e < V4.depth f p) ∧
  (∀ v r, (v, r) ∈ l → r ≠ .Out ∧ ∀ f ∈ M4.forms m, ∃ p, (box v).Mem p ∧ -e ≤ V4.depth f p) ∧
  (∀ v r, (v, r) ∈ l → (∀ p, (box v).Mem p → ∀ f ∈ M4.forms m, e < V4.depth f p) → r = .In)

theorem culled_notOut {m : M4 ℝ} {box : V → Aabb3 ℝ} {e : ℝ} {vs : List V} {l : List (V × Relation)} (rel : V → Relation) (h : ∀ v, ClipRel (rel v) m (box v) e) (hl : l.Perm (notOut rel vs)) :
    CulledM m box e vs l := by
  have mem : ∀ v r, (v, r) ∈ l ↔ v ∈ vs ∧ rel v = r ∧ r ≠ .Out := by
    intro v r
    rw [hl.mem_iff]
    simp only [notOut, List.mem_filterMap]
    constructor
    · rintro ⟨w, hw, e⟩
      split at e
      · cases e
      · rename_i hne
        cases e
        exact ⟨hw, rfl, hne⟩
    · rintro ⟨hv, rfl, hne⟩
      exact ⟨v, hv, if_neg hne⟩
  refine ⟨((hl.map Prod.fst).subperm).trans (notOut_sublist _ vs).subperm, ?_, ?_, ?_, ?_⟩
  · rintro v hv ⟨p, hp, hin⟩
    refine ⟨_, (mem _ _).2 ⟨hv, rfl, fun ho => ?_⟩⟩
    obtain ⟨f, hf, hlt⟩ := (h v).1.1 ho
    have := hlt p hp
    have := hin f hf
    linarith
  · exact fun v hin p hp f hf => (h v).1.2 ((mem _ _).1 hin).2.1 f hf p hp
  · intro v r hvr
    obtain ⟨-, q, hne⟩ := (mem _ _).1 hvr
    refine ⟨hne, fun f hf => ?_⟩
    by_contra hc
    push Not at hc
    exact hne (q ▸ (h v).2.1 ⟨f, hf, hc⟩)
  · intro v r hvr hall
    obtain ⟨-, q, -⟩ := (mem _ _).1 hvr
    exact q ▸ (h v).2.2 fun f hf p hp => hall p hp f hf

/-- The frustum of a matrix, when there is one, relates a box as `relate_clip_space` does. -/
theorem relateClip_some {F : Type} [LinearOrder F] {R : Rounding F} {eps : F} {m : M4 F} {fs : List (PlaneF F)} (h : fromMatrix4F R eps m = some fs) (b : Aabb3 F) :
    relateClipF R eps (relateBoxF R b) m = frustumF R fs b := by
  unfold relateClipF
  rw [h]
  rfl

/-- **C125, any history of a tree of boxes in `f64`**: on a refitted, up-to-date tree of height at most 256 reached by any sequence of insertions, removals and updates, with any fat bounds that contain
the boxes, the culling query with the frustum of the matrix is right up to `10 u (5M + W)`. -/
theorem c125_f64_boxes (hlo : (2 : ℝ) ^ (-400 : ℤ) ≤ M) (hhi : M ≤ (2 : ℝ) ^ (400 : ℤ)) (box : V → Aabb3 ℝ) (hb : ∀ v, FitsB binary64 M (box v)) (fat : V → Box64_3)
    (hfat : ∀ v, (fat v).1.contains (boxR3 binary64 (box v)) = true) (area : Aabb3 F64 → S) (lt : S → S → Bool) (sub div : S → S → S) (im : S) {h : Hist V} {s : Dbvt V Box64_3}
    (he : Exec (fOps3 (fun v => (⟨boxR3 binary64 (box v), boxR3_valid (hb v).1⟩ : Box64_3)) fat area lt sub div im) h s)
    (hd : Disciplined (fOps3 (fun v => (⟨boxR3 binary64 (box v), boxR3_valid (hb v).1⟩ : Box64_3)) fat area lt sub div im) h)
    (hu : UpToDate (fOps3 (fun v => (⟨boxR3 binary64 (box v), boxR3_valid (hb v).1⟩ : Box64_3)) fat area lt sub div im) h) (hr : Refitted! h) {n : Nat} (hh : s.height = .ok n) (hn : n ≤ 256)
    {m : M4 ℝ} (h0 : 0 ≤ N) (h1 : N ≤ (2 : ℝ) ^ (400 : ℤ)) (hm : MatIn binary64 N m) (hL : ∀ f ∈ M4.forms m, 2 * eps64 ≤ (V4.normal f).norm) (hW : ∀ f ∈ M4.forms m, V4.far f ≤ W) :
    ∃ fs, fromMatrix4F binary64 (numR binary64 eps64) (matR binary64 m) = some fs ∧
      ∃ l, s.query (fOps3 (fun v => (⟨boxR3 binary64 (box v), boxR3_valid (hb v).1⟩ : Box64_3)) fat area lt sub div im)
          (pureVisitor fun b _ => if frustumF binary64 fs b.1 = .Out then none else some (frustumF binary64 fs b.1)) () = .ok l ∧
        CulledM m box (10 * ((2 : ℝ) ^ (-53 : ℤ) * (5 * M + W))) (s.values.map Prod.snd) l := by
  have hE : 4 * (2 : ℝ) ^ (-53 : ℤ) = 2 * eps64 := by
    unfold eps64
    norm_num
  obtain ⟨planes, e, -⟩ := c125_planes (mat64 h0 h1) hm (fun v hv => hE ▸ hL v hv)
  obtain ⟨l, q1, q2⟩ := c99_frustum binary64 (fun v => (⟨boxR3 binary64 (box v), boxR3_valid (hb v).1⟩ : Box64_3)) fat area lt sub div im hfat (planes.map (planeR binary64)) he hd hu hr hh hn
  exact ⟨_, e, l, q1, culled_notOut _ (fun v => relateClip_some e _ ▸ c125_f64_box h0 h1 hm hL hW hlo hhi (hb v)) q2⟩

/-- **C125, any history of a tree of boxes in `f32`**: on a refitted, up-to-date tree of height at most 256 reached by any sequence of insertions, removals and updates, with any fat bounds that contain
the boxes, the culling query with the frustum of the matrix is right up to `10 u (5M + W)`. -/
theorem c125_f32_boxes (hlo : (2 : ℝ) ^ (-36 : ℤ) ≤ M) (hhi : M ≤ (2 : ℝ) ^ (100 : ℤ)) (box : V → Aabb3 ℝ) (hb : ∀ v, FitsB binary32 M (box v)) (fat : V → Box32_3)
    (hfat : ∀ v, (fat v).1.contains (boxR3 binary32 (box v)) = true) (area : Aabb3 F32 → S) (lt : S → S → Bool) (sub div : S → S → S) (im : S) {h : Hist V} {s : Dbvt V Box32_3}
    (he : Exec (fOps3 (fun v => (⟨boxR3 binary32 (box v), boxR3_valid (hb v).1⟩ : Box32_3)) fat area lt sub div im) h s)
    (hd : Disciplined (fOps3 (fun v => (⟨boxR3 binary32 (box v), boxR3_valid (hb v).1⟩ : Box32_3)) fat area lt sub div im) h)
    (hu : UpToDate (fOps3 (fun v => (⟨boxR3 binary32 (box v), boxR3_valid (hb v).1⟩ : Box32_3)) fat area lt sub div im) h) (hr : Refitted! h) {n : Nat} (hh : s.height = .ok n) (hn : n ≤ 256)
    {m : M4 ℝ} (h0 : 0 ≤ N) (h1 : N ≤ (2 : ℝ) ^ (50 : ℤ)) (hm : MatIn binary32 N m) (hL : ∀ f ∈ M4.forms m, 2 * eps32 ≤ (V4.normal f).norm) (hW : ∀ f ∈ M4.forms m, V4.far f ≤ W) :
    ∃ fs, fromMatrix4F binary32 (numR binary32 eps32) (matR binary32 m) = some fs ∧
      ∃ l, s.query (fOps3 (fun v => (⟨boxR3 binary32 (box v), boxR3_valid (hb v).1⟩ : Box32_3)) fat area lt sub div im)
          (pureVisitor fun b _ => if frustumF binary32 fs b.1 = .Out then none else some (frustumF binary32 fs b.1)) () = .ok l ∧
        CulledM m box (10 * ((2 : ℝ) ^ (-24 : ℤ) * (5 * M + W))) (s.values.map Prod.snd) l := by
  have hE : 4 * (2 : ℝ) ^ (-24 : ℤ) = 2 * eps32 := by
    unfold eps32
    norm_num
  obtain ⟨planes, e, -⟩ := c125_planes (mat32 h0 h1) hm (fun v hv => hE ▸ hL v hv)
  obtain ⟨l, q1, q2⟩ := c99_frustum binary32 (fun v => (⟨boxR3 binary32 (box v), boxR3_valid (hb v).1⟩ : Box32_3)) fat area lt sub div im hfat (planes.map (planeR binary32)) he hd hu hr hh hn
  exact ⟨_, e, l, q1, culled_notOut _ (fun v => relateClip_some e _ ▸ c125_f32_box h0 h1 hm hL hW hlo hhi (hb v)) q2⟩

/-- **C125, a tree of boxes in `f64`** (at most 256, any margin): for every matrix with entries up to `2^400`, no exact normal shorter than twice the machine epsilon, and planes at most `W` away, the
frustum is made, and the culling query with it is right up to `10 u (5M + W)`. -/
theorem c125_f64_boxtree (hlo : (2 : ℝ) ^ (-400 : ℤ) ≤ M) (hhi : M ≤ (2 : ℝ) ^ (400 : ℤ)) (box : V → Aabb3 ℝ) (hb : ∀ v, FitsB binary64 M (box v)) (mg : V3 F64) (hmg : f0 ≤ mg.x ∧ f0 ≤ mg.y ∧ f0 ≤ mg.z)
    (area : Aabb3 F64 → S) (lt : S → S → Bool) (sub div : S → S → S) (im : S) (vs : List V) (hvs : vs.length ≤ 256) (rng : Nat → Nat) :
    ∃ s : Dbvt V Box64_3, s.values.map Prod.snd = vs ∧
      ∀ {N W : ℝ} {m : M4 ℝ}, 0 ≤ N → N ≤ (2 : ℝ) ^ (400 : ℤ) → MatIn binary64 N m → (∀ f ∈ M4.forms m, 2 * eps64 ≤ (V4.normal f).norm) → (∀ f ∈ M4.forms m, V4.far f ≤ W) →
        ∃ fs, fromMatrix4F binary64 (numR binary64 eps64) (matR binary64 m) = some fs ∧
          ∃ l, s.query (fOps3 (fun v => (⟨boxR3 binary64 (box v), boxR3_valid (hb v).1⟩ : Box64_3)) (fun v => fat3 mg hmg ⟨boxR3 binary64 (box v), boxR3_valid (hb v).1⟩) area lt sub div im)
              (pureVisitor fun b _ => if frustumF binary64 fs b.1 = .Out then none else some (frustumF binary64 fs b.1)) () = .ok l ∧
            CulledM m box (10 * ((2 : ℝ) ^ (-53 : ℤ) * (5 * M + W))) vs l := by
  have hfat : ∀ v, (fat3 mg hmg ⟨boxR3 binary64 (box v), boxR3_valid (hb v).1⟩).1.contains (boxR3 binary64 (box v)) = true := fun v => (c99_margin3 binary64 (boxR3 binary64 (box v)) mg hmg.1 hmg.2.1 hmg.2.2).2
  obtain ⟨h, s, he, hd, hu, hr, hv⟩ := build_tree (fOps3 (fun v => (⟨boxR3 binary64 (box v), boxR3_valid (hb v).1⟩ : Box64_3)) (fun v => fat3 mg hmg ⟨boxR3 binary64 (box v), boxR3_valid (hb v).1⟩) area lt sub div im) vs rng
  obtain ⟨n, hh, -, -, hn, -⟩ := c04_height _ he hr
  have hl : s.values.length = vs.length := by rw [← hv, List.length_map]
  refine ⟨s, hv, fun h0 h1 hm hL hW => ?_⟩
  have := c125_f64_boxes hlo hhi box hb _ hfat area lt sub div im he hd hu hr hh (by omega) h0 h1 hm hL hW
  rwa [hv] at this

/-- **C125, a tree of boxes in `f32`** (at most 256, any margin), for matrices with entries up to `2^50` and boxes of sizes from `2^-36` to `2^100`. -/
theorem c125_f32_boxtree (hlo : (2 : ℝ) ^ (-36 : ℤ) ≤ M) (hhi : M ≤ (2 : ℝ) ^ (100 : ℤ)) (box : V → Aabb3 ℝ) (hb : ∀ v, FitsB binary32 M (box v)) (mg : V3 F32) (hmg : z32 ≤ mg.x ∧ z32 ≤ mg.y ∧ z32 ≤ mg.z)
    (area : Aabb3 F32 → S) (lt : S → S → Bool) (sub div : S → S → S) (im : S) (vs : List V) (hvs : vs.length ≤ 256) (rng : Nat → Nat) :
    ∃ s : Dbvt V Box32_3, s.values.map Prod.snd = vs ∧
      ∀ {N W : ℝ} {m : M4 ℝ}, 0 ≤ N → N ≤ (2 : ℝ) ^ (50 : ℤ) → MatIn binary32 N m → (∀ f ∈ M4.forms m, 2 * eps32 ≤ (V4.normal f).norm) → (∀ f ∈ M4.forms m, V4.far f ≤ W) →
        ∃ fs, fromMatrix4F binary32 (numR binary32 eps32) (matR binary32 m) = some fs ∧
          ∃ l, s.query (fOps3 (fun v => (⟨boxR3 binary32 (box v), boxR3_valid (hb v).1⟩ : Box32_3)) (fun v => fat3_32 mg hmg ⟨boxR3 binary32 (box v), boxR3_valid (hb v).1⟩) area lt sub div im)
              (pureVisitor fun b _ => if frustumF binary32 fs b.1 = .Out then none else some (frustumF binary32 fs b.1)) () = .ok l ∧
            CulledM m box (10 * ((2 : ℝ) ^ (-24 : ℤ) * (5 * M + W))) vs l := by
  have hfat : ∀ v, (fat3_32 mg hmg ⟨boxR3 binary32 (box v), boxR3_valid (hb v).1⟩).1.contains (boxR3 binary32 (box v)) = true := fun v => (c99_margin3 binary32 (boxR3 binary32 (box v)) mg hmg.1 hmg.2.1 hmg.2.2).2
  obtain ⟨h, s, he, hd, hu, hr, hv⟩ := build_tree (fOps3 (fun v => (⟨boxR3 binary32 (box v), boxR3_valid (hb v).1⟩ : Box32_3)) (fun v => fat3_32 mg hmg ⟨boxR3 binary32 (box v), boxR3_valid (hb v).1⟩) area lt sub div im) vs rng
  obtain ⟨n, hh, -, -, hn, -⟩ := c04_height _ he hr
  have hl : s.values.length = vs.length := by rw [← hv, List.length_map]
  refine ⟨s, hv, fun h0 h1 hm hL hW => ?_⟩
  have := c125_f32_boxes hlo hhi box hb _ hfat area lt sub div im he hd hu hr hh (by omega) h0 h1 hm hL hW
  rwa [hv] at this

/-- A case in `f64`: two cubes, one at 1 and one at 20, in a tree; the orthographic projection of the cube from -8 to 8 returns the first, as `In`, and not the second. -/
example (rng : Nat → Nat) : ∃ (hb : ∀ n : ℤ, n ∈ [1, 20] → FitsB binary64 32 (cubeAt n)) (s : Dbvt { n : ℤ // n ∈ [1, 20] } Box64_3) (fs : List (PlaneF F64)) (l : List ({ n : ℤ // n ∈ [1, 20] } × Relation)),
    fromMatrix4F binary64 (numR binary64 eps64) (matR binary64 (orthoCube 1)) = some fs ∧
    s.query (fOps3 (fun v => (⟨boxR3 binary64 (cubeAt v.1), boxR3_valid (hb v.1 v.2).1⟩ : Box64_3)) (fun v => fat3 ⟨f0, f0, f0⟩ ⟨le_rfl, le_rfl, le_rfl⟩ ⟨boxR3 binary64 (cubeAt v.1), boxR3_valid (hb v.1 v.2).1⟩)
        (fun _ => ()) (fun _ _ => false) (fun _ _ => ()) (fun _ _ => ()) ())
      (pureVisitor fun b _ => if frustumF binary64 fs b.1 = .Out then none else some (frustumF binary64 fs b.1)) () = .ok l ∧
    (⟨1, by simp⟩, Relation.In) ∈ l ∧ ∀ r, (⟨20, by simp⟩, r) ∉ l := by
  have r0 := rep_zero (R := binary64)
  have r1 := rep_one (R := binary64)
  have r18 : Rep binary64 ((1 : ℝ) / 8) := rep_of_rep64 ⟨1, -3, by norm_num, by norm_num, by norm_num, by norm_num⟩
  have r2 : Rep binary64 (1 + 1) := by have := rep_int (n := 2) (by norm_num); norm_num at this ⊢; exact this
  have r20 : Rep binary64 20 := by simpa using rep_int (n := 20) (by norm_num)
  have r21 : Rep binary64 (20 + 1) := by have := rep_int (n := 21) (by norm_num); norm_num at this ⊢; exact this
  have hb : ∀ n : ℤ, n ∈ [1, 20] → FitsB binary64 32 (cubeAt n) := by
    intro n hn
    have hn : n = 1 ∨ n = 20 := by simpa using hn
    rcases hn with rfl | rfl
    · refine ⟨⟨by norm_num [cubeAt], by norm_num [cubeAt], by norm_num [cubeAt]⟩, ⟨⟨by simpa [cubeAt] using r1, r0, r0⟩, ?_⟩, ⟨by simpa [cubeAt] using r2, r1, r1⟩, ?_⟩ <;> norm_num [Sz3, cubeAt]
    · refine ⟨⟨by norm_num [cubeAt], by norm_num [cubeAt], by norm_num [cubeAt]⟩, ⟨⟨by simpa [cubeAt] using r20, r0, r0⟩, ?_⟩, ⟨by simpa [cubeAt] using r21, r1, r1⟩, ?_⟩ <;> norm_num [Sz3, cubeAt]
  have hf := orthoCube_forms (k := 1) one_pos
  have b1 : (2 : ℝ) ^ (-400 : ℤ) ≤ 32 := (zpow2_le (show (-400 : ℤ) ≤ 5 by norm_num)).trans (by norm_num)
  have b2 : (32 : ℝ) ≤ (2 : ℝ) ^ (400 : ℤ) := le_trans (by norm_num) (zpow2_le (show (5 : ℤ) ≤ 400 by norm_num))
  obtain ⟨s, -, hq⟩ := c125_f64_boxtree (M := 32) b1 b2 (fun v : { n : ℤ // n ∈ [1, 20] } => cubeAt v.1) (fun v => hb v.1 v.2) ⟨f0, f0, f0⟩ ⟨le_rfl, le_rfl, le_rfl⟩
    (fun _ => ()) (fun _ _ => false) (fun _ _ => ()) (fun _ _ => ()) () [⟨1, by simp⟩, ⟨20, by simp⟩] (by simp) rng
  obtain ⟨fs, e, l, h1, -, h2, -, h3, h4⟩ := hq (N := 1) (W := 8) zero_le_one (b2.trans' (by norm_num)) (orthoCube_in (N := 1) zero_le_one le_rfl r1 r18) (fun v hv => by rw [(hf v hv).1]; norm_num [eps64]) (fun v hv => (hf v hv).2.2.1.le)
  have inside : ∀ p, (cubeAt 1).Mem p → ∀ f ∈ M4.forms (orthoCube 1), 6 ≤ V4.depth f p := by
    rintro p ⟨⟨a, b⟩, ⟨c, d⟩, g, k⟩ f hf'
    simp only [cubeAt] at a b c d g k
    norm_num at a b
    exact (hf f hf').2.2.2 p ⟨abs_le.2 ⟨by linarith, by linarith⟩, abs_le.2 ⟨by linarith, by linarith⟩, abs_le.2 ⟨by linarith, by linarith⟩⟩
  obtain ⟨r, hr⟩ := h2 ⟨1, by simp⟩ (by simp) ⟨⟨1, 0, 0⟩, by norm_num [Aabb3.Mem, cubeAt], fun f hf' => by
    have := inside ⟨1, 0, 0⟩ (by norm_num [Aabb3.Mem, cubeAt]) f hf'
    norm_num
    linarith⟩
  have hIn := h4 _ r hr (fun p hp f hf' => by
    have := inside p hp f hf'
    norm_num
    linarith)
  subst hIn
  refine ⟨hb, s, fs, l, e, h1, hr, fun r hr => ?_⟩
  have hmem : (orthoCube 1).r3.sub (orthoCube 1).r0 ∈ M4.forms (orthoCube 1) := by simp [M4.forms]
  obtain ⟨p, hp, hg⟩ := (h3 _ r hr).2 _ hmem
  have c := hp.1.1
  simp only [cubeAt] at c
  unfold V4.depth at hg
  rw [(hf _ hmem).1, le_div_iff₀ (by norm_num)] at hg
  simp only [orthoCube, V4.sub, V4.dot, V3.hom] at hg
  norm_num at hg c
  linarith
end
end Verif.Scene
