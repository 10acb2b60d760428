import Verif.Proof.AmrPass
import Mathlib.Tactic.Module
import Mathlib.Tactic.Abel
import Mathlib.Algebra.BigOperators.Group.List.Basic
/-! The content of the blocks: refining and merging conserve it. -/
namespace Shamrock.Amr

/-- The volume of a block. -/
def vol (b : Box) : ℚ := ((b.hi.x - b.lo.x : Int) : ℚ) * ((b.hi.y - b.lo.y : Int) : ℚ) * ((b.hi.z - b.lo.z : Int) : ℚ)

/-- Mass, momentum and energy in a block: the sum over its eight cells of (volume of the cell) · (density). -/
def content (b : Blk) : Cons :=
  (vol b.box / 8) • (b.cell 0 + b.cell 1 + b.cell 2 + b.cell 3 + b.cell 4 + b.cell 5 + b.cell 6 + b.cell 7)

/-- Mass, momentum and energy in a list of blocks. -/
def total (L : List Blk) : Cons := (L.map content).sum

theorem total_append (A B : List Blk) : total (A ++ B) = total A + total B := by
  unfold total; rw [List.map_append, List.sum_append]

theorem total_perm {A B : List Blk} (h : A.Perm B) : total A = total B := by
  unfold total; exact (h.map content).sum_eq

theorem total_nil : total [] = 0 := rfl

theorem total_single (b : Blk) : total [b] = content b := by unfold total; simp

theorem vol_cube (q : V3 Int) (s : Int) : vol (cube q s) = (s : ℚ) * s * s := by
  unfold vol cube
  dsimp only
  rw [show q.x + s - q.x = s by omega, show q.y + s - q.y = s by omega, show q.z + s - q.z = s by omega]

theorem interp_sum (I : Interp) (b i : Nat) : interpState I b i 0 + interpState I b i 1 + interpState I b i 2 + interpState I b i 3 +
    interpState I b i 4 + interpState I b i 5 + interpState I b i 6 + interpState I b i 7 = (8 : ℚ) • I.snap i := by
  unfold interpState childOffset
  dsimp only
  generalize (if I.second = true then (1 : ℚ) else 0) = m
  generalize I.size b * (1 / 4) = h
  module

/-- The eight new cells of an old cell have the mean of the old cell. -/
theorem refined_sum (I : Interp) (b i : Nat) : refinedState I b i 0 + refinedState I b i 1 + refinedState I b i 2 + refinedState I b i 3 +
    refinedState I b i 4 + refinedState I b i 5 + refinedState I b i 6 + refinedState I b i 7 = (8 : ℚ) • I.snap i := by
  unfold refinedState
  by_cases h : (List.range 8).all (fun s => physical (interpState I b i s)) = true
  · simp only [if_pos h]
    exact interp_sum I b i
  · simp only [if_neg h]
    module

theorem child_content (I : Interp) (q : V3 Int) (s : Int) (hs : 0 < s) (i p : Nat) (hp : p < 8) :
    content (child I (cube q (2 * s)) i p) = (vol (cube q (2 * s)) / 8) • I.snap (i * 8 + p) := by
  unfold content child
  dsimp only
  have hv : vol (splitX (cube q (2 * s)) p) = (s : ℚ) * s * s := by
    rw [splitX_eq _ _ hp, splitZ_cube q s hs _ (by unfold revBits; omega), vol_cube]
  rw [hv, vol_cube]
  have := refined_sum I i (i * 8 + p)
  simp only [Fin.isValue, Fin.val_zero, Fin.val_one, Fin.val_two]
  rw [show ((3 : Fin 8) : Nat) = 3 from rfl, show ((4 : Fin 8) : Nat) = 4 from rfl, show ((5 : Fin 8) : Nat) = 5 from rfl,
    show ((6 : Fin 8) : Nat) = 6 from rfl, show ((7 : Fin 8) : Nat) = 7 from rfl, this]
  push_cast
  module

/-- Refining a block conserves its content. -/
theorem refined_content (I : Interp) (b : Blk) (q : V3 Int) (s : Int) (hs : 0 < s) (hb : b.box = cube q (2 * s)) (i : Nat)
    (hsnap : ∀ k : Fin 8, I.snap (i * 8 + k) = b.cell k) : total ((List.range 8).map (child I b.box i)) = content b := by
  have h : ∀ p < 8, content (child I b.box i p) = (vol b.box / 8) • I.snap (i * 8 + p) := by
    intro p hp; rw [hb]; exact child_content I q s hs i p hp
  unfold total
  rw [List.map_map]
  have : (List.range 8).map (content ∘ child I b.box i) = (List.range 8).map (fun p => (vol b.box / 8) • I.snap (i * 8 + p)) := by
    apply List.map_congr_left
    intro p hp
    exact h p (List.mem_range.1 hp)
  rw [this, show List.range 8 = [0, 1, 2, 3, 4, 5, 6, 7] by decide]
  simp only [List.map_cons, List.map_nil, List.sum_cons, List.sum_nil]
  unfold content
  rw [← hsnap 0, ← hsnap 1, ← hsnap 2, ← hsnap 3, ← hsnap 4, ← hsnap 5, ← hsnap 6, ← hsnap 7]
  show _ = (vol b.box / 8) • (I.snap (i * 8 + 0) + I.snap (i * 8 + 1) + I.snap (i * 8 + 2) + I.snap (i * 8 + 3) + I.snap (i * 8 + 4) + I.snap (i * 8 + 5) + I.snap (i * 8 + 6) + I.snap (i * 8 + 7))
  module

/-- Merging an octet conserves its content. -/
theorem merged_content (B : Nat → Blk) (q : V3 Int) (s : Int) (hs : 0 < s) (hB : ∀ k < 8, (B k).box = cube (kidLo q s k) s) :
    content (merged B) = content (B 0) + content (B 1) + content (B 2) + content (B 3) + content (B 4) + content (B 5) + content (B 6) + content (B 7) := by
  have hv : vol (merged B).box = 8 * ((s : ℚ) * s * s) := by
    have : (merged B).box = cube q (2 * s) := by
      have h := mergeAll_split q s hs (fun k => (B k).box) hB
      rw [← h]
      unfold merged
      dsimp only
    rw [this, vol_cube]; push_cast; ring
  have hc : ∀ (c : Fin 8) (k : Nat), c.val = k → (merged B).cell c = meanCell (B k) := by
    intro c k hk
    subst hk
    rw [← restricted_mean]
    unfold merged
    rfl
  have hk : ∀ k < 8, content (B k) = ((s : ℚ) * s * s) • meanCell (B k) := by
    intro k hk
    unfold content meanCell
    rw [hB k hk, vol_cube]
    module
  rw [hk 0 (by omega), hk 1 (by omega), hk 2 (by omega), hk 3 (by omega), hk 4 (by omega), hk 5 (by omega), hk 6 (by omega), hk 7 (by omega)]
  unfold content
  rw [hv, hc 0 0 rfl, hc 1 1 rfl, hc 2 2 rfl, hc 3 3 rfl, hc 4 4 rfl, hc 5 5 rfl, hc 6 6 rfl, hc 7 7 rfl]
  module

theorem total_flatMap_succ (F : Nat → List Blk) (m : Nat) : total ((List.range (m + 1)).flatMap F) = total ((List.range m).flatMap F) + total (F m) := by
  rw [List.range_succ, List.flatMap_append, total_append]
  simp

theorem total_map_succ (B : Nat → Blk) (m : Nat) : total ((List.range (m + 1)).map B) = total ((List.range m).map B) + content (B m) := by
  rw [List.range_succ, List.map_append, total_append, List.map_singleton, total_single]

section
variable {G : Grid} {e : Nat} {t : Oct e} {lo : V3 Int} {E : Nat} {crit : Nat → Bool × Bool} {ref der : List Nat}

/-- The new blocks have the content of the old ones. -/
theorem newBlks_total (h : AmrOk G t lo E) (P : Plan G crit ref der) (I : Interp) (B : Nat → Blk) (hB : ∀ i < G.n, (B i).box = G.box i)
    (hsnap : ∀ i < G.n, ∀ k : Fin 8, I.snap (i * 8 + k) = (B i).cell k) :
    total ((List.range G.n).flatMap (newBlks I B ref der)) = total ((List.range G.n).map B) := by
  have hdn : ∀ d, der[d]? = some 1 → d < G.n := by
    intro d hd
    have := (List.getElem?_eq_some_iff.1 hd).1
    rw [P.derF.1] at this; exact this
  have hkey : ∀ m ≤ G.n, (∀ d, der[d]? = some 1 → ¬ (d < m ∧ m < d + 8)) →
      total ((List.range m).flatMap (newBlks I B ref der)) = total ((List.range m).map B) := by
    intro m
    induction m using Nat.strong_induction_on with
    | _ m ih =>
      intro hm hns
      rcases m with _ | k
      · rfl
      by_cases hin : inMerge der k = true
      · obtain ⟨d, d1, d2, d3⟩ := (inMerge_iff der k).1 hin
        have d1 := of_decide_eq_true d1
        have hk : k + 1 = d + 8 := by have := hns d d1; omega
        have hd := hdn d d1
        have hih := ih d (by omega) (by omega) (fun d' hd' hs => by have := octet_disjoint h P hd' d1 (by omega) (by omega); omega)
        have e0 : newBlks I B ref der d = [merged fun k => B (d + k)] := by
          unfold newBlks
          rw [(P.oct d hd d1).keep, if_neg (by simp), if_pos d1]
        have e1 : ∀ j, 0 < j → j < 8 → newBlks I B ref der (d + j) = [] := by
          intro j j0 j8
          unfold newBlks
          have hr := octet_kept h P hd d1 j j8
          have hnd : der[d + j]? ≠ some 1 := fun q => by have := octet_disjoint h P d1 q (by omega) (by omega); omega
          have him : inMerge der (d + j) = true := (inMerge_iff der _).2 ⟨d, decide_eq_true d1, by omega, by omega⟩
          rw [hr, if_neg (by simp), if_neg hnd, if_pos him]
        rw [hk]
        have hL := total_flatMap_succ (newBlks I B ref der)
        have hR := total_map_succ B
        rw [show d + 8 = d + 7 + 1 from rfl, hL, hR, show d + 7 = d + 6 + 1 from rfl, hL, hR, show d + 6 = d + 5 + 1 from rfl, hL, hR,
          show d + 5 = d + 4 + 1 from rfl, hL, hR, show d + 4 = d + 3 + 1 from rfl, hL, hR, show d + 3 = d + 2 + 1 from rfl, hL, hR,
          show d + 2 = d + 1 + 1 from rfl, hL, hR, hL, hR]
        rw [show d + 1 + 1 = d + 2 from rfl, show d + 2 + 1 = d + 3 from rfl, show d + 3 + 1 = d + 4 from rfl, show d + 4 + 1 = d + 5 from rfl,
          show d + 5 + 1 = d + 6 from rfl, show d + 6 + 1 = d + 7 from rfl]
        rw [hih, e0, e1 1 (by omega) (by omega), e1 2 (by omega) (by omega), e1 3 (by omega) (by omega), e1 4 (by omega) (by omega),
          e1 5 (by omega) (by omega), e1 6 (by omega) (by omega), e1 7 (by omega) (by omega), total_nil, total_single]
        obtain ⟨q, s, hs, hw⟩ := octet_fam h (P.oct d hd d1)
        have hroom := (P.oct d hd d1).room
        rw [merged_content (fun k => B (d + k)) q s hs (fun k hk => by rw [hB _ (by omega)]; exact hw.1 k hk)]
        simp only [add_zero]
        abel
      · have hih := ih k (by omega) (by omega) (fun d hd hs => hin ((inMerge_iff der k).2 ⟨d, decide_eq_true hd, by omega, by omega⟩))
        rw [total_flatMap_succ, total_map_succ, hih]
        congr 1
        have hnd : der[k]? ≠ some 1 := fun q => hin ((inMerge_iff der k).2 ⟨k, decide_eq_true q, by omega, by omega⟩)
        unfold newBlks
        by_cases hr : ref[k]? = some 1
        · rw [if_pos hr]
          have hl := refined_lv h ((P.must k (by omega)).1 hr)
          refine refined_content I (B k) (G.box k).lo (2 ^ (E - G.lv k - 1)) (by positivity) ?_ k (hsnap k (by omega))
          rw [hB k (by omega), h.cube_pow (by omega : k < G.n)]
          have : (2 : Int) ^ (E - G.lv k) = 2 * 2 ^ (E - G.lv k - 1) := by
            rw [← pow_succ']; congr 1; omega
          rw [this]; rfl
        · rw [if_neg hr, if_neg hnd, if_neg hin, total_single]
  exact hkey G.n (le_refl _) (fun d hd hs => by have := (P.oct d (hdn d hd) hd).room; omega)

end

end Shamrock.Amr
