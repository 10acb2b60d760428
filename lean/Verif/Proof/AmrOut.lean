import Verif.Proof.AmrPlan
/-! The blocks after a pass. -/
namespace Shamrock.Amr

/-- `i` is in a merged octet. -/
def inMerge (der : List Nat) (i : Nat) : Bool := (List.range 8).any fun k => decide (k ≤ i) && decide (der[i - k]? = some 1)

theorem inMerge_iff (der : List Nat) (i : Nat) : inMerge der i = true ↔ Covered (fun j => decide (der[j]? = some 1)) i := by
  unfold inMerge Covered
  rw [List.any_eq_true]
  constructor
  · rintro ⟨k, hk, h⟩
    rw [List.mem_range] at hk
    rw [Bool.and_eq_true, decide_eq_true_eq] at h
    exact ⟨i - k, h.2, by omega, by omega⟩
  · rintro ⟨d, h1, h2, h3⟩
    refine ⟨i - d, List.mem_range.2 (by omega), ?_⟩
    rw [Bool.and_eq_true, decide_eq_true_eq]
    refine ⟨by omega, ?_⟩
    rw [show i - (i - d) = d by omega]; exact h1

/-- What block `i` becomes (children numbered `z` fastest). -/
def outBoxes (G : Grid) (ref der : List Nat) (i : Nat) : List Box :=
  if ref[i]? = some 1 then (List.range 8).map (splitZ (G.box i))
  else if der[i]? = some 1 then [mergeAll fun k => G.box (i + k)]
  else if inMerge der i then [] else [G.box i]

/-- The level of what covers block `i` after the pass. -/
def futLv (G : Grid) (ref der : List Nat) (i : Nat) : Nat :=
  if ref[i]? = some 1 then G.lv i + 1 else if inMerge der i then G.lv i - 1 else G.lv i

section
variable {G : Grid} {e : Nat} {t : Oct e} {lo : V3 Int} {E : Nat} {crit : Nat → Bool × Bool} {ref der : List Nat}

theorem AmrOk.side_pow (h : AmrOk G t lo E) {i : Nat} (hi : i < G.n) : side (G.box i) = 2 ^ (E - G.lv i) := by
  have h1 := h.level i hi
  have h2 := h.lv_le hi
  have h3 : (2 : Int) ^ E = 2 ^ (E - G.lv i) * 2 ^ G.lv i := by rw [← pow_add]; congr 1; omega
  rw [h3] at h1
  exact mul_right_cancel₀ (pow_pos' _).ne' h1

theorem AmrOk.cube_pow (h : AmrOk G t lo E) {i : Nat} (hi : i < G.n) : G.box i = Amr.cube (G.box i).lo (2 ^ (E - G.lv i)) := by
  obtain ⟨s, h1, h2⟩ := h.cube hi
  have h3 := h.side_pow hi
  rw [h2, side_cube] at h3
  rw [← h3]; exact h2

/-- Refined blocks are wide enough. -/
theorem refined_lv (h : AmrOk G t lo E) {i : Nat} (hm : MustRefine G (Wish G crit) i) : G.lv i + 1 ≤ E := by
  have hi := hm.lt
  cases hm with
  | wanted _ _ hw =>
    by_contra hc
    have h1 := h.side_pow hi
    rw [show E - G.lv i = 0 by omega] at h1
    unfold Wish critFlags at hw
    dsimp only at hw
    split at hw
    · rename_i hb
      simp only [Bool.and_eq_true, decide_eq_true_eq] at hb
      unfold side at h1
      have := hb.1.1.2
      simp at h1
      omega
    · cases hw
  | forced b _ hb _ hl hlt =>
    have := h.lv_le hb.lt
    omega

theorem AmrOk.level_bal (h : AmrOk G t lo E) {a b : Nat} (ha : a < G.n) (hb : b < G.n) (hadj : Adjacent (G.box a) (G.box b)) : G.lv b ≤ G.lv a + 1 := by
  have h1 := h.bal _ (List.mem_of_getElem? (h.box a ha)) _ (List.mem_of_getElem? (h.box b hb)) hadj
  rw [h.side_pow ha, h.side_pow hb] at h1
  have h2 := h.lv_le ha
  have h3 := h.lv_le hb
  have h4 : (2 : Int) ^ (E - G.lv a) ≤ 2 ^ (E - G.lv b + 1) := by rw [pow_succ]; omega
  have h5 : (2 : Nat) ^ (E - G.lv a) ≤ 2 ^ (E - G.lv b + 1) := by exact_mod_cast h4
  have := (Nat.pow_le_pow_iff_right (by omega)).1 h5
  omega

theorem AmrOk.disjoint (h : AmrOk G t lo E) {a b : Nat} (ha : a < G.n) (hb : b < G.n) {p : V3 Int} (h1 : Inside (G.box a) p)
    (h2 : Inside (G.box b) p) : a = b := boxes_disjoint t lo p a b _ _ (h.box a ha) (h.box b hb) h1 h2

theorem Inside_lo (h : AmrOk G t lo E) {a : Nat} (ha : a < G.n) : Inside (G.box a) (G.box a).lo := by
  obtain ⟨s, h1, h2⟩ := h.cube ha
  rw [h2]
  unfold Inside cube
  dsimp only
  omega

/-- Neighbouring blocks differ by at most one level after the pass. -/
theorem futLv_bal (h : AmrOk G t lo E) (P : Plan G crit ref der) {a b : Nat} (ha : a < G.n) (hb : b < G.n)
    (hadj : Adjacent (G.box a) (G.box b)) : futLv G ref der a ≤ futLv G ref der b + 1 := by
  have hlb := h.level_bal ha hb hadj
  have hla := h.level_bal hb ha hadj.symm
  have hl1 := (h.links a ha b hb).2 hadj
  have hl2 := (h.links b hb a ha).2 hadj.symm
  -- a merged neighbour
  have hmer : inMerge der b = true → ∃ d, der[d]? = some 1 ∧ d < G.n ∧ futW G ref der a ≤ G.lv b ∧ 1 ≤ G.lv b := by
    intro hm
    obtain ⟨d, d1, d2, d3⟩ := (inMerge_iff der b).1 hm
    have d1 := of_decide_eq_true d1
    have hdn := (List.getElem?_eq_some_iff.1 d1).1
    rw [P.derF.1] at hdn
    have hs := P.stable d hdn d1 (b - d) (by omega) a (by rw [show d + (b - d) = b by omega]; exact hl2) ha
    have hlev := (P.oct d hdn d1).level (b - d) (by omega)
    rw [show d + (b - d) = b by omega] at hlev
    have hpos := octet_level h P hdn d1
    exact ⟨d, d1, hdn, by omega, by omega⟩
  have hlva := h.lvOk a
  unfold futLv
  by_cases ra : ref[a]? = some 1
  · have hda : der[a]? ≠ some 1 := fun e => by have := (P.oct a ha e).keep; rw [ra] at this; cases this
    have hf : futW G ref der a = G.lv a + 1 := by
      unfold futW
      rw [if_neg hda, if_pos ra]
      unfold w64; omega
    rw [if_pos ra]
    by_cases rb : ref[b]? = some 1
    · rw [if_pos rb]; omega
    · rw [if_neg rb]
      by_cases mb : inMerge der b = true
      · obtain ⟨d, -, -, h1, h2⟩ := hmer mb
        rw [if_pos mb]; omega
      · rw [if_neg mb]
        have : ¬ G.lv b < G.lv a := fun hlt => rb ((P.must b hb).2 (.forced a b ((P.must a ha).1 ra) hb hl1 hlt))
        omega
  · rw [if_neg ra]
    by_cases rb : ref[b]? = some 1
    · rw [if_pos rb]
      split <;> omega
    · rw [if_neg rb]
      by_cases mb : inMerge der b = true
      · obtain ⟨d, -, -, h1, h2⟩ := hmer mb
        rw [if_pos mb]
        by_cases ma : inMerge der a = true
        · rw [if_pos ma]; omega
        · rw [if_neg ma]
          have hda : der[a]? ≠ some 1 := fun e => ma ((inMerge_iff der a).2 ⟨a, by simpa using e, le_refl _, by omega⟩)
          have hf : futW G ref der a = G.lv a := by
            unfold futW
            rw [if_neg hda, if_neg ra]
            unfold w64; omega
          omega
      · rw [if_neg mb]
        split <;> omega

/-- Each point of a new block: the old block there, and the width of the new block. -/
theorem outBoxes_side (h : AmrOk G t lo E) (P : Plan G crit ref der) {i : Nat} (hi : i < G.n) {A : Box} (hA : A ∈ outBoxes G ref der i)
    {p : V3 Int} (hp : Inside A p) : ∃ a < G.n, Inside (G.box a) p ∧ side A = 2 ^ (E - futLv G ref der a) ∧ futLv G ref der a ≤ E := by
  have hcube := h.cube_pow hi
  have hle := h.lv_le hi
  unfold outBoxes at hA
  by_cases hr : ref[i]? = some 1
  · rw [if_pos hr, List.mem_map] at hA
    obtain ⟨k, hk, rfl⟩ := hA
    rw [List.mem_range] at hk
    have hlv := refined_lv h ((P.must i hi).1 hr)
    have h2 : (2 : Int) ^ (E - G.lv i) = 2 * 2 ^ (E - (G.lv i + 1)) := by
      rw [← pow_succ']; congr 1; omega
    rw [hcube, h2, splitZ_cube _ _ (pow_pos' _) k hk] at hp ⊢
    refine ⟨i, hi, ?_, ?_, ?_⟩
    · rw [hcube, h2, mul_comm]
      exact kid_inside _ _ (pow_pos' _) k hk p hp
    · rw [side_cube]; unfold futLv; rw [if_pos hr]
    · unfold futLv; rw [if_pos hr]; exact hlv
  · rw [if_neg hr] at hA
    by_cases hd : der[i]? = some 1
    · rw [if_pos hd, List.mem_singleton] at hA
      subst hA
      have ho := P.oct i hi hd
      have hroom := ho.room
      obtain ⟨q, s, s0, h2, -⟩ := octet_fam h ho
      rw [mergeAll_split q s s0 _ h2, mul_comm] at hp ⊢
      obtain ⟨k, hk, hpk⟩ := kid_cover q s p hp
      rw [← h2 k hk] at hpk
      have hs : s = 2 ^ (E - G.lv (i + k)) := by
        have := h.side_pow (show i + k < G.n by omega)
        rw [h2 k hk, side_cube] at this
        exact this
      have hlk := ho.level k hk
      have hpos := octet_level h P hi hd
      have hkeep := octet_kept h P hi hd k hk
      have hm : inMerge der (i + k) = true := (inMerge_iff _ _).2 ⟨i, by simpa using hd, by omega, by omega⟩
      have hf : futLv G ref der (i + k) = G.lv i - 1 := by
        unfold futLv
        rw [if_neg (by rw [hkeep]; simp), if_pos hm, hlk]
      refine ⟨i + k, by omega, hpk, ?_, by omega⟩
      rw [side_cube, hf, hs, hlk, ← pow_succ]
      congr 1
      omega
    · rw [if_neg hd] at hA
      by_cases hm : inMerge der i = true
      · rw [if_pos hm] at hA; exact absurd hA List.not_mem_nil
      · rw [if_neg hm, List.mem_singleton] at hA
        subst hA
        have hf : futLv G ref der i = G.lv i := by
          unfold futLv
          rw [if_neg hr, if_neg hm]
        exact ⟨i, hi, hp, by rw [hf]; exact h.side_pow hi, by omega⟩

/-- The blocks after the pass are balanced. -/
theorem out_balanced (h : AmrOk G t lo E) (P : Plan G crit ref der) : Balanced ((List.range G.n).flatMap (outBoxes G ref der)) := by
  rintro A hA B hB ⟨-, p, q, hp, hq, hst⟩
  obtain ⟨i, hi, hA⟩ := List.mem_flatMap.1 hA
  obtain ⟨j, hj, hB⟩ := List.mem_flatMap.1 hB
  rw [List.mem_range] at hi hj
  obtain ⟨a, ha, ha1, ha2, ha3⟩ := outBoxes_side h P hi hA hp
  obtain ⟨b, hb, hb1, hb2, hb3⟩ := outBoxes_side h P hj hB hq
  rw [ha2, hb2, ← pow_succ']
  have hle : futLv G ref der b ≤ futLv G ref der a + 1 := by
    by_cases hab : a = b
    · subst hab; omega
    · refine futLv_bal h P hb ha ⟨fun e => hab ?_, q, p, hb1, ha1, hst.symm⟩
      exact h.disjoint ha hb ha1 (by rw [e]; exact ha1)
  have h1 : (2 : Nat) ^ (E - futLv G ref der a) ≤ 2 ^ (E - futLv G ref der b + 1) := Nat.pow_le_pow_right (by omega) (by omega)
  exact_mod_cast h1

/-- The new blocks of the octree. -/
theorem out_ok (h : AmrOk G t lo E) (P : Plan G crit ref der) :
    OutOk (fun i => decide (ref[i]? = some 1)) (fun i => decide (der[i]? = some 1)) (outBoxes G ref der) t lo 0 := by
  refine ⟨fun j q S hj hR => ?_, fun j b hj hR hc => ?_, fun j d hj hD h1 h2 => ?_⟩
  · rw [Nat.zero_add] at *
    have hR := of_decide_eq_true hR
    have hjn := (List.getElem?_eq_some_iff.1 hj).1
    rw [← h.count] at hjn
    rw [h.box j hjn] at hj
    have hj := Option.some.inj hj
    have hlv := refined_lv h ((P.must j hjn).1 hR)
    have hS : S = 2 ^ (E - G.lv j) := by
      have := h.side_pow hjn
      rw [hj, side_cube] at this; exact this
    have h2 : (2 : Int) ^ (E - G.lv j) = 2 * 2 ^ (E - (G.lv j + 1)) := by
      rw [← pow_succ']; congr 1; omega
    have h3 := pow_pos' (E - (G.lv j + 1))
    refine ⟨by omega, ?_⟩
    unfold outBoxes
    rw [if_pos hR]
    apply List.map_congr_left
    intro k hk
    rw [List.mem_range] at hk
    rw [hj, show S = 2 * (S / 2) by omega, splitZ_cube _ _ (by omega) k hk]
    congr 1
    · congr 1; omega
    · omega
  · rw [Nat.zero_add] at *
    have hR := of_decide_eq_false hR
    have hjn := (List.getElem?_eq_some_iff.1 hj).1
    rw [← h.count] at hjn
    rw [h.box j hjn] at hj
    unfold outBoxes
    have hm : ¬ inMerge der j = true := fun e => hc ((inMerge_iff der j).1 e)
    rw [if_neg hR, if_neg (fun e => hm ((inMerge_iff der j).2 ⟨j, by simpa using e, le_refl _, by omega⟩)), if_neg hm, Option.some.inj hj]
  · rw [Nat.zero_add] at *
    have hD := of_decide_eq_true hD
    have hdn := (List.getElem?_eq_some_iff.1 hD).1
    rw [P.derF.1] at hdn
    have ho := P.oct d hdn hD
    obtain ⟨q, s, s0, f1, f2⟩ := octet_fam h ho
    have hk := octet_kept h P hdn hD
    refine ⟨Nat.zero_le _, ?_, q, s, f2, ?_, fun k k1 k2 => ?_⟩
    · have := hk (j - d) (by omega)
      rw [show d + (j - d) = j by omega] at this
      rw [this]; simp
    · have h0 := hk 0 (by omega)
      rw [Nat.add_zero] at h0
      unfold outBoxes
      rw [if_neg (by rw [h0]; simp), if_pos hD, mergeAll_split q s s0 _ f1]
    · have hnd : der[d + k]? ≠ some 1 := fun e => by have := octet_disjoint h P hD e (by omega) (by omega); omega
      unfold outBoxes
      rw [if_neg (by rw [hk k k2]; simp), if_neg hnd, if_pos ((inMerge_iff _ _).2 ⟨d, by simpa using hD, by omega, by omega⟩)]

end

end Shamrock.Amr
