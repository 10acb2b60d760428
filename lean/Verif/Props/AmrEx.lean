import Verif.Props.Amr
/-! C57: concrete grids, and the defects. -/
namespace Shamrock.Amr

/-- A cube of side 8 whose first eighth is split once more. -/
def octEx : Oct 3 := .node fun r => if r = 0 then .node (fun _ => .leaf 1) else .leaf 2

/-- A cube of side 8 split in eight. -/
def oct8 : Oct 3 := .node fun _ => .leaf 2

/-- Eight cells of densities 1 … 8. -/
def blkEx (b : Box) : Blk := ⟨b, fun k => (1 + (k.val : ℚ), (0, 0, 0), 5)⟩

/-- Blocks of sides between `s` and `2 * s` are balanced. -/
theorem balanced_of_sides (L : List Box) (s : Int) (h : ∀ b ∈ L, s ≤ side b ∧ side b ≤ 2 * s) : Balanced L := by
  intro a ha b hb _
  have := h a ha
  have := h b hb
  omega

/-- The hypotheses of `C57_pass` hold for the 15 blocks of `octEx`. -/
example : Mesh 3 ⟨0, 0, 0⟩ ((octEx.boxes ⟨0, 0, 0⟩).map blkEx) ∧ Balanced (((octEx.boxes ⟨0, 0, 0⟩).map blkEx).map Blk.box) ∧
    ((octEx.boxes ⟨0, 0, 0⟩).map blkEx).length = 15 ∧ ∃ G, Describes G 3 ((octEx.boxes ⟨0, 0, 0⟩).map blkEx) := by
  have hmap : ((octEx.boxes ⟨0, 0, 0⟩).map blkEx).map Blk.box = octEx.boxes ⟨0, 0, 0⟩ := by
    rw [List.map_map]; exact List.map_id _
  have hm : Mesh 3 ⟨0, 0, 0⟩ ((octEx.boxes ⟨0, 0, 0⟩).map blkEx) := ⟨octEx, hmap⟩
  refine ⟨hm, ?_, ?_, describes_exists hm 3 (by omega) (by omega)⟩
  · rw [hmap]; exact balanced_of_sides _ 2 (by decide +kernel)
  · rw [List.length_map]; decide +kernel

/-- The grid of the eight blocks of `oct8`. -/
def grid8 : Grid := ⟨8, fun _ => 1, fun i => if i < 8 then [i ^^^ 4, i ^^^ 2, i ^^^ 1] else [], fun i => ((oct8.boxes ⟨0, 0, 0⟩)[i]?).getD box0⟩

/-- No interpolation, the snapshot is that of `bs`. -/
def interp0 (bs : List Blk) : Interp := ⟨snapOf bs, fun _ => (0, 0, 0), fun _ => 1, false⟩

/-- A concrete pass: refining the first block of `oct8` gives the blocks of `octEx`, in order; asking all blocks to merge gives one block back. -/
example : ((amrStep grid8 (interp0 []) (fun i => (i == 0, false)) (fun _ => blkEx box0) ⟨fun _ => [3, 1, 2], [5], [], []⟩ (cube ⟨0, 0, 0⟩ 8) (fun _ _ => []) false
      ((oct8.boxes ⟨0, 0, 0⟩).map blkEx)).map fun l => l.map Blk.box) = some (octEx.boxes ⟨0, 0, 0⟩) ∧
    ((amrStep grid8 (interp0 []) (fun _ => (false, true)) (fun _ => blkEx box0) ⟨fun _ => [], [], [], []⟩ (cube ⟨0, 0, 0⟩ 8) (fun _ _ => []) false
      ((oct8.boxes ⟨0, 0, 0⟩).map blkEx)).map fun l => l.map Blk.box) = some [cube ⟨0, 0, 0⟩ 8] := by
  decide +kernel

/-- The intervals share a point. -/
def overI (l h l' h' : Int) : Bool := decide (l < h) && decide (l' < h') && decide (l < h') && decide (l' < h)

/-- A point of one interval and a point of the other differ by one. -/
def stepI (l h l' h' : Int) : Bool :=
  (decide (l < h) && decide (l < h' - 1) && decide (l' - 1 < h) && decide (l' < h')) || (decide (l' < h') && decide (l' < h - 1) && decide (l - 1 < h') && decide (l < h))

/-- Decidable form of `Adjacent`. -/
def touch (a b : Box) : Bool :=
  decide (a ≠ b) && ((stepI a.lo.x a.hi.x b.lo.x b.hi.x && overI a.lo.y a.hi.y b.lo.y b.hi.y && overI a.lo.z a.hi.z b.lo.z b.hi.z) ||
    (overI a.lo.x a.hi.x b.lo.x b.hi.x && stepI a.lo.y a.hi.y b.lo.y b.hi.y && overI a.lo.z a.hi.z b.lo.z b.hi.z) ||
    (overI a.lo.x a.hi.x b.lo.x b.hi.x && overI a.lo.y a.hi.y b.lo.y b.hi.y && stepI a.lo.z a.hi.z b.lo.z b.hi.z))

theorem overI_iff (l h l' h' : Int) : overI l h l' h' = true ↔ ∃ p, (l ≤ p ∧ p < h) ∧ l' ≤ p ∧ p < h' := by
  unfold overI
  simp only [Bool.and_eq_true, decide_eq_true_eq]
  constructor
  · intro h
    rcases Int.le_total l l' with q | q
    · exact ⟨l', by omega, by omega⟩
    · exact ⟨l, by omega, by omega⟩
  · rintro ⟨p, h1, h2⟩; omega

theorem stepI_iff (l h l' h' : Int) : stepI l h l' h' = true ↔ ∃ p q, (l ≤ p ∧ p < h) ∧ (l' ≤ q ∧ q < h') ∧ (q - p).natAbs = 1 := by
  unfold stepI
  simp only [Bool.or_eq_true, Bool.and_eq_true, decide_eq_true_eq]
  constructor
  · rintro (h | h)
    · rcases Int.le_total l (l' - 1) with q | q
      · exact ⟨l' - 1, l', by omega, by omega, by omega⟩
      · exact ⟨l, l + 1, by omega, by omega, by omega⟩
    · rcases Int.le_total l' (l - 1) with q | q
      · exact ⟨l, l - 1, by omega, by omega, by omega⟩
      · exact ⟨l' + 1, l', by omega, by omega, by omega⟩
  · rintro ⟨p, q, h1, h2, h3⟩; omega

theorem touch_iff (a b : Box) : touch a b = true ↔ Adjacent a b := by
  unfold touch Adjacent
  simp only [Bool.or_eq_true, Bool.and_eq_true, decide_eq_true_eq, overI_iff, stepI_iff]
  constructor
  · rintro ⟨h0, (⟨⟨⟨p, q, p1, p2, p3⟩, y, y1, y2⟩, z, z1, z2⟩ | ⟨⟨⟨x, x1, x2⟩, ⟨p, q, p1, p2, p3⟩⟩, z, z1, z2⟩) | ⟨⟨⟨x, x1, x2⟩, y, y1, y2⟩, p, q, p1, p2, p3⟩⟩
    · exact ⟨h0, ⟨p, y, z⟩, ⟨q, y, z⟩, ⟨p1.1, p1.2, y1.1, y1.2, z1.1, z1.2⟩, ⟨p2.1, p2.2, y2.1, y2.2, z2.1, z2.2⟩, by unfold Step1; dsimp only; omega⟩
    · exact ⟨h0, ⟨x, p, z⟩, ⟨x, q, z⟩, ⟨x1.1, x1.2, p1.1, p1.2, z1.1, z1.2⟩, ⟨x2.1, x2.2, p2.1, p2.2, z2.1, z2.2⟩, by unfold Step1; dsimp only; omega⟩
    · exact ⟨h0, ⟨x, y, p⟩, ⟨x, y, q⟩, ⟨x1.1, x1.2, y1.1, y1.2, p1.1, p1.2⟩, ⟨x2.1, x2.2, y2.1, y2.2, p2.1, p2.2⟩, by unfold Step1; dsimp only; omega⟩
  · rintro ⟨h0, p, q, ⟨a1, a2, a3, a4, a5, a6⟩, ⟨b1, b2, b3, b4, b5, b6⟩, hs⟩
    unfold Step1 at hs
    refine ⟨h0, ?_⟩
    obtain h | h | h : (q.x - p.x).natAbs = 1 ∧ q.y = p.y ∧ q.z = p.z ∨ (q.x = p.x ∧ (q.y - p.y).natAbs = 1 ∧ q.z = p.z) ∨ (q.x = p.x ∧ q.y = p.y ∧ (q.z - p.z).natAbs = 1) := by omega
    · exact .inl (.inl ⟨⟨⟨p.x, q.x, ⟨a1, a2⟩, ⟨b1, b2⟩, h.1⟩, p.y, ⟨a3, a4⟩, by omega⟩, p.z, ⟨a5, a6⟩, by omega⟩)
    · exact .inl (.inr ⟨⟨⟨p.x, ⟨a1, a2⟩, by omega⟩, p.y, q.y, ⟨a3, a4⟩, ⟨b3, b4⟩, h.2.1⟩, p.z, ⟨a5, a6⟩, by omega⟩)
    · exact .inr ⟨⟨⟨p.x, ⟨a1, a2⟩, by omega⟩, p.y, ⟨a3, a4⟩, by omega⟩, p.z, q.z, ⟨a5, a6⟩, ⟨b5, b6⟩, h.2.2⟩

/-- A decidable form of `Describes`. -/
theorem describes_of (G : Grid) (E : Nat) (L : List Box) (f : Box → Blk) (hf : ∀ b, (f b).box = b) (hn : G.n = L.length) (hE : E ≤ 62)
    (hl : ∀ i, G.lv i < 9223372036854775808)
    (h : ∀ i < L.length, L[i]? = some (G.box i) ∧ side (G.box i) * 2 ^ (G.lv i) = 2 ^ E ∧ ∀ j < L.length, (decide (j ∈ G.links i) = touch (G.box i) (G.box j))) :
    Describes G E (L.map f) := by
  have hget : ∀ (i : Nat) b, (L.map f)[i]? = some b → i < L.length ∧ G.box i = b.box := by
    intro i b hb
    have hi : i < L.length := by have := (List.getElem?_eq_some_iff.1 hb).1; simpa using this
    rw [List.getElem?_map, (h i hi).1, Option.map_some] at hb
    rw [← Option.some.inj hb, hf]
    exact ⟨hi, rfl⟩
  constructor
  · rw [hn, List.length_map]
  · intro i b hb; exact (hget i b hb).2
  · exact hE
  · exact hl
  · intro i b hb
    obtain ⟨h1, h2⟩ := hget i b hb
    rw [← h2]; exact (h i h1).2.1
  · intro a b A B hA hB
    obtain ⟨a1, a2⟩ := hget a A hA
    obtain ⟨b1, b2⟩ := hget b B hB
    rw [← a2, ← b2, ← touch_iff, ← (h a a1).2.2 b b1]
    simp

theorem grid8_describes : Describes grid8 3 ((oct8.boxes ⟨0, 0, 0⟩).map blkEx) := by
  apply describes_of grid8 3 _ blkEx (fun _ => rfl)
  · decide +kernel
  · omega
  · intro i; show 1 < _; omega
  · decide +kernel

/-- C57, a defect: the kernel that looks for octets reads flags that other items of the same launch overwrite, so the same grid and the same wishes give a merge
or none, depending on the interleaving. -/
theorem C57_merge_race_defect : ∃ (G : Grid) (crit : Nat → Bool × Bool) (s1 : Nat → List Nat), Describes G 3 ((oct8.boxes ⟨0, 0, 0⟩).map blkEx) ∧
    passFlags G crit s1 [] = some ([0, 0, 0, 0, 0, 0, 0, 0], [1, 0, 0, 0, 0, 0, 0, 0]) ∧
    passFlags G crit s1 [1] = some ([0, 0, 0, 0, 0, 0, 0, 0], [0, 0, 0, 0, 0, 0, 0, 0]) :=
  ⟨grid8, fun _ => (false, true), fun _ => [], grid8_describes, by decide +kernel, by decide +kernel⟩

/-- C57, a defect: when eight blocks are merged, cell `c` of the merged block gets the mean of block `c` of the octet; cells are numbered with `x` fastest and the
blocks of an octet with `z` fastest, so the state lands in another place: cell 1 of the merged block does not hold the mean of the block it replaces. For every
interleaving. -/
theorem C57_merge_orientation_defect : ∃ bs : List Blk, Mesh 3 ⟨0, 0, 0⟩ bs ∧ ∀ sched, ∃ M, derefineGrid sched [1, 0, 0, 0, 0, 0, 0, 0] bs = some [M] ∧
    ∃ b ∈ bs, b.box = splitX M.box 1 ∧ (∀ p, Inside (splitX M.box 1) p → Inside b.box p) ∧ M.cell 1 ≠ meanCell b := by
  let B : Nat → Blk := fun i => ⟨cube (kidLo ⟨0, 0, 0⟩ 4 i) 4, fun _ => ((i : ℚ), (0, 0, 0), 5)⟩
  refine ⟨(List.range 8).map B, ⟨oct8, ?_⟩, ?_⟩
  · rw [List.map_map]; decide +kernel
  · intro sched
    have hB : ∀ (i : Nat), i < ((List.range 8).map B).length → ((List.range 8).map B)[i]? = some (B i) := by
      intro i hi
      rw [List.length_map, List.length_range] at hi
      rw [List.getElem?_map, List.getElem?_range hi]; rfl
    have hone : ∀ d : Nat, ([1, 0, 0, 0, 0, 0, 0, 0] : List Nat)[d]? = some 1 → d = 0 := by
      intro d hd
      have hlt := (List.getElem?_eq_some_iff.1 hd).1
      simp only [List.length_cons, List.length_nil] at hlt
      interval_cases d <;> simp at hd ⊢
    have h := derefineGrid_ok sched [1, 0, 0, 0, 0, 0, 0, 0] _ B hB
      (by intro i hi; simp only [List.length_cons, List.length_nil] at hi; interval_cases i <;> simp)
      (by intro d hd; rw [hone d hd]; simp) (by intro d d' h1 h2 _ _; rw [hone d h1, hone d' h2])
    have e1 : ((List.range ((List.range 8).map B).length).flatMap fun i =>
        if ([1, 0, 0, 0, 0, 0, 0, 0] : List Nat)[i]? = some 1 then [merged fun k => B (i + k)] else if inMerge [1, 0, 0, 0, 0, 0, 0, 0] i then [] else [B i]) = [merged B] := by
      rw [List.length_map, List.length_range, List.range_succ_eq_map, List.flatMap_cons]
      have h0 : (List.map Nat.succ (List.range 7)).flatMap (fun i =>
          if ([1, 0, 0, 0, 0, 0, 0, 0] : List Nat)[i]? = some 1 then [merged fun k => B (i + k)] else if inMerge [1, 0, 0, 0, 0, 0, 0, 0] i then [] else [B i]) = [] := by
        rw [List.flatMap_eq_nil_iff]
        intro i hi
        obtain ⟨j, hj, rfl⟩ := List.mem_map.1 hi
        rw [List.mem_range] at hj
        rw [if_neg (fun q => by have := hone _ q; omega), if_pos]
        interval_cases j <;> decide
      rw [h0, List.append_nil, if_pos (by rfl)]
      congr 1
    rw [e1] at h
    refine ⟨merged B, h, B 4, List.mem_map_of_mem (List.mem_range.2 (by omega)), ?_, ?_, ?_⟩
    · have : (merged B).box = cube ⟨0, 0, 0⟩ (2 * 4) := mergeAll_split ⟨0, 0, 0⟩ 4 (by omega) (fun k => (B k).box) (fun k _ => rfl)
      rw [this]
      decide +kernel
    · have : (merged B).box = cube ⟨0, 0, 0⟩ (2 * 4) := mergeAll_split ⟨0, 0, 0⟩ 4 (by omega) (fun k => (B k).box) (fun k _ => rfl)
      rw [this, show splitX (cube ⟨0, 0, 0⟩ (2 * 4)) 1 = (B 4).box by decide +kernel]
      exact fun p hp => hp
    · have hc : (merged B).cell 1 = meanCell (B 1) := restricted_mean B 1
      rw [hc]
      intro hq
      have := congrArg Prod.fst hq
      unfold meanCell at this
      norm_num [B] at this

/-- A patch with one block of side 4 (level 3 if the blocks of level 0 have side 32) whose neighbour across the face `x = 0` is a ghost block. -/
def gridA : Grid := ⟨1, fun i => if i = 0 then 3 else 2, fun i => if i = 0 then [1] else [], fun _ => ⟨⟨0, 0, 0⟩, ⟨4, 4, 4⟩⟩⟩

/-- The patch of that neighbour: one block of side 8, level 2. -/
def gridB : Grid := ⟨1, fun i => if i = 0 then 2 else 3, fun i => if i = 0 then [1] else [], fun _ => ⟨⟨-8, 0, 0⟩, ⟨0, 8, 8⟩⟩⟩

/-- C57, a defect: links to ghost blocks are skipped, so the balance is not kept across the border of two patches: two blocks of two patches, one twice as wide as
the other, of which the small one asks to be refined; whatever the interleavings, the wide one is not refined. -/
theorem C57_patch_border_defect : ∃ (A B : Blk) (crit : Nat → Bool × Bool), Describes gridA 5 [A] ∧ Describes gridB 5 [B] ∧ Balanced [A.box, B.box] ∧
    ∀ (IA IB : Interp) (junk : Nat → Blk) (SA SB : PassSched) (sa sb : Nat → Nat → List Nat) (oA oB : Bool), ∃ outA outB,
      amrStep gridA IA crit junk SA A.box sa oA [A] = some outA ∧ amrStep gridB IB (fun _ => (false, false)) junk SB B.box sb oB [B] = some outB ∧
      ¬ Balanced (outA.map Blk.box ++ outB.map Blk.box) := by
  refine ⟨blkEx ⟨⟨0, 0, 0⟩, ⟨4, 4, 4⟩⟩, blkEx ⟨⟨-8, 0, 0⟩, ⟨0, 8, 8⟩⟩, fun _ => (true, false), ?_, ?_, ?_, ?_⟩
  · refine describes_of gridA 5 [⟨⟨0, 0, 0⟩, ⟨4, 4, 4⟩⟩] blkEx (fun _ => rfl) rfl (by omega) ?_ (by decide)
    intro i; unfold gridA; dsimp only; split <;> omega
  · refine describes_of gridB 5 [⟨⟨-8, 0, 0⟩, ⟨0, 8, 8⟩⟩] blkEx (fun _ => rfl) rfl (by omega) ?_ (by decide)
    intro i; unfold gridB; dsimp only; split <;> omega
  · exact balanced_of_sides _ 4 (by decide)
  · intro IA IB junk SA SB sa sb oA oB
    have dA : Describes gridA 5 [blkEx ⟨⟨0, 0, 0⟩, ⟨4, 4, 4⟩⟩] := by
      refine describes_of gridA 5 [⟨⟨0, 0, 0⟩, ⟨4, 4, 4⟩⟩] blkEx (fun _ => rfl) rfl (by omega) ?_ (by decide)
      intro i; unfold gridA; dsimp only; split <;> omega
    have dB : Describes gridB 5 [blkEx ⟨⟨-8, 0, 0⟩, ⟨0, 8, 8⟩⟩] := by
      refine describes_of gridB 5 [⟨⟨-8, 0, 0⟩, ⟨0, 8, 8⟩⟩] blkEx (fun _ => rfl) rfl (by omega) ?_ (by decide)
      intro i; unfold gridB; dsimp only; split <;> omega
    obtain ⟨outA, a1, a2, a3, a4, a5⟩ := C57_pass (e := 2) (lo := ⟨0, 0, 0⟩) (by omega) dA ⟨.leaf 2, rfl⟩ (balanced_of_sides _ 4 (by decide)) (by decide) IA (fun _ => (true, false)) junk SA sa oA
    obtain ⟨outB, b1, b2, b3, b4, b5⟩ := C57_pass (e := 3) (lo := ⟨-8, 0, 0⟩) (by omega) dB ⟨.leaf 3, rfl⟩ (balanced_of_sides _ 8 (by decide)) (by decide) IB (fun _ => (false, false)) junk SB sb oB
    refine ⟨outA, outB, a1, b1, ?_⟩
    intro hbal
    have hA := a5 0 _ rfl (.wanted 0 (by decide) (by unfold Wish critFlags gridA; decide)) 0 (by omega)
    have hB : blkEx ⟨⟨-8, 0, 0⟩, ⟨0, 8, 8⟩⟩ ∈ outB := by
      obtain ⟨i, b, hb, hin, -⟩ := (C57_tiling b2 ⟨-8, 0, 0⟩).1 (by unfold Inside cube; decide)
      have := b4 b (List.mem_of_getElem? hb)
      have hno : ∀ i, ¬ MustRefine gridB (Wish gridB fun _ => (false, false)) i := by
        intro i hm
        induction hm with
        | wanted i h1 h2 => unfold Wish critFlags at h2; simp at h2
        | forced b i _ _ _ _ ih => exact ih
      cases this with
      | kept j b' h1 h2 =>
        have hj : j = 0 := by have := (List.getElem?_eq_some_iff.1 h1).1; simpa using this
        subst hj
        have h1 : blkEx ⟨⟨-8, 0, 0⟩, ⟨0, 8, 8⟩⟩ = b := by simpa using h1
        rw [h1]; exact List.mem_of_getElem? hb
      | refined j k b' h1 h2 h3 => exact absurd h2 (hno j)
      | merged j o q s h1 h2 =>
        have := (List.getElem?_eq_some_iff.1 (h2 1).1).1
        simp at this
    have h1 := hbal _ (List.mem_append_right _ (List.mem_map_of_mem hB)) _ (List.mem_append_left _ (List.mem_map_of_mem hA)) ((touch_iff _ _).1 (by show touch ⟨⟨-8, 0, 0⟩, ⟨0, 8, 8⟩⟩ (splitX ⟨⟨0, 0, 0⟩, ⟨4, 4, 4⟩⟩ 0) = true; decide))
    have h2 : side ⟨⟨-8, 0, 0⟩, ⟨0, 8, 8⟩⟩ ≤ 2 * side (splitX ⟨⟨0, 0, 0⟩, ⟨4, 4, 4⟩⟩ 0) := h1
    exact absurd h2 (by decide)

/-- The eight blocks of `oct8`, block `i` of uniform density `d i`. -/
def uniform8 (d : Nat → ℚ) : List Blk := (List.range 8).map fun i => ⟨grid8.box i, fun _ => (d i, (0, 0, 0), 5)⟩

/-- C57, a defect: the snapshot is taken from fields that hold the states of the start of the time step, so a refined block goes back to its state before the step:
a step that moves mass from one block to another, followed by the refinement of the first, creates mass. For every interleaving. -/
theorem C57_stale_snapshot_defect : ∃ before after : List Blk, Mesh 3 ⟨0, 0, 0⟩ before ∧ after.map Blk.box = before.map Blk.box ∧ total after = total before ∧
    Describes grid8 3 after ∧ ∃ crit, ∀ (I : Interp) (junk : Nat → Blk) (S : PassSched) (ss : Nat → Nat → List Nat) (others : Bool),
      ∃ out, solverRefine grid8 I crit junk S (cube ⟨0, 0, 0⟩ (2 ^ 3)) ss others before after = some out ∧ total out ≠ total before := by
  let d0 : Nat → ℚ := fun _ => 1
  let d1 : Nat → ℚ := fun i => if i = 0 then 1 / 2 else if i = 1 then 3 / 2 else 1
  have hbx : ∀ d, (uniform8 d).map Blk.box = oct8.boxes ⟨0, 0, 0⟩ := by
    intro d
    have : (uniform8 d).map Blk.box = (List.range 8).map grid8.box := by unfold uniform8; rw [List.map_map]; rfl
    rw [this]; decide +kernel
  have hd : Describes grid8 3 (uniform8 d1) := by
    have h := grid8_describes
    have hmap : ∀ (l l' : List Blk), l.map Blk.box = l'.map Blk.box → ∀ (i : Nat) b, l[i]? = some b → ∃ b', l'[i]? = some b' ∧ b'.box = b.box := by
      intro l l' hll i b hb
      have := congrArg (fun l => l[i]?) hll
      simp only [List.getElem?_map, hb, Option.map_some] at this
      rcases hq : l'[i]? with _ | b'
      · rw [hq] at this; cases this
      · rw [hq] at this; exact ⟨b', rfl, (Option.some.inj this).symm⟩
    have hm := hmap (uniform8 d1) ((oct8.boxes ⟨0, 0, 0⟩).map blkEx) (by rw [hbx, List.map_map]; exact (List.map_id _).symm)
    constructor
    · decide +kernel
    · intro i b hb
      obtain ⟨b', h1, h2⟩ := hm i b hb
      rw [← h2]; exact h.box i b' h1
    · exact h.small
    · exact h.levels
    · intro i b hb
      obtain ⟨b', h1, h2⟩ := hm i b hb
      rw [← h2]; exact h.level i b' h1
    · intro a b A B hA hB
      obtain ⟨A', a1, a2⟩ := hm a A hA
      obtain ⟨B', b1, b2⟩ := hm b B hB
      rw [← a2, ← b2]; exact h.links a b A' B' a1 b1
  have hmesh : ∀ d, Mesh 3 ⟨0, 0, 0⟩ (uniform8 d) := fun d => ⟨oct8, hbx d⟩
  refine ⟨uniform8 d0, uniform8 d1, hmesh _, by rw [hbx, hbx], by decide +kernel, hd, fun i => (i == 0, false), ?_⟩
  intro I junk S ss others
  have hbal : Balanced ((uniform8 d1).map Blk.box) := by rw [hbx]; exact balanced_of_sides _ 4 (by decide +kernel)
  obtain ⟨out, o1, -⟩ := C57_pass (by omega) hd (hmesh _) hbal (by decide +kernel) { I with snap := snapOf (uniform8 d0) } (fun i => (i == 0, false)) junk S ss others
  refine ⟨out, o1, ?_⟩
  obtain ⟨mid, m1, m2, m3⟩ := C57_content (by omega) hd (hmesh _) hbal _ _ junk S ss others o1
  rw [m2]
  have hmust : ∀ i, MustRefine grid8 (Wish grid8 fun i => (i == 0, false)) i ↔ i = 0 := by
    intro i
    constructor
    · intro hm
      cases hm with
      | wanted _ h1 h2 =>
        unfold Wish critFlags at h2
        by_contra hne
        simp [hne] at h2
      | forced b _ h1 h2 h3 h4 => exact absurd h4 (by unfold grid8; simp)
    · intro h; subst h; exact .wanted 0 (by decide) (by unfold Wish critFlags; decide +kernel)
  have hmid : mid = (List.range 8).map fun i => ⟨grid8.box i, fun _ => ((if i = 0 then 1 else d1 i), (0, 0, 0), 5)⟩ := by
    apply List.ext_getElem?
    intro i
    rcases Nat.lt_or_ge i 8 with hi | hi
    · have hg : ∀ d, (uniform8 d)[i]? = some ⟨grid8.box i, fun _ => (d i, (0, 0, 0), 5)⟩ := by
        intro d; unfold uniform8; rw [List.getElem?_map, List.getElem?_range hi]; rfl
      rw [List.getElem?_map, List.getElem?_range hi, Option.map_some]
      by_cases h0 : i = 0
      · rw [(m3 i _ (hg d1)).1 ((hmust i).2 h0), if_pos h0]
        congr 2
        funext k
        show snapOf (uniform8 d0) (i * 8 + k) = _
        unfold snapOf
        rw [show (i * 8 + k.val) / 8 = i by omega, hg d0]
      · rw [(m3 i _ (hg d1)).2 (fun q => h0 ((hmust i).1 q)), if_neg h0]
    · rw [List.getElem?_eq_none (by rw [m1]; simpa [uniform8] using hi), List.getElem?_eq_none (by simpa using hi)]
  rw [hmid]
  decide +kernel

end Shamrock.Amr
