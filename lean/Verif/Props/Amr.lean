import Verif.Proof.AmrStep
/-! C57: the refinement pass of the AMR solver. -/
namespace Shamrock.Amr

/-! ### Splitting and merging blocks -/

/-- C57: splitting a block gives eight parts; every point of the block is in exactly one of them, and they contain no other point. -/
theorem C57_split_tiles (b : Box) (hx : b.lo.x ≤ b.hi.x) (hy : b.lo.y ≤ b.hi.y) (hz : b.lo.z ≤ b.hi.z) (p : V3 Int) :
    (Inside b p → ∃ i < 8, Inside (splitX b i) p ∧ ∀ j < 8, Inside (splitX b j) p → j = i) ∧ (∀ i < 8, Inside (splitX b i) p → Inside b p) := by
  have hm : b.lo.x ≤ (splitPt b).x ∧ (splitPt b).x ≤ b.hi.x ∧ b.lo.y ≤ (splitPt b).y ∧ (splitPt b).y ≤ b.hi.y ∧ b.lo.z ≤ (splitPt b).z ∧ (splitPt b).z ≤ b.hi.z := by
    unfold splitPt
    dsimp only
    rw [Int.tdiv_eq_ediv_of_nonneg (by omega), Int.tdiv_eq_ediv_of_nonneg (by omega), Int.tdiv_eq_ediv_of_nonneg (by omega)]
    omega
  obtain ⟨m1, m2, m3, m4, m5, m6⟩ := hm
  have key : ∀ i < 8, Inside (splitX b i) p ↔ (if i % 2 = 0 then b.lo.x ≤ p.x ∧ p.x < (splitPt b).x else (splitPt b).x ≤ p.x ∧ p.x < b.hi.x) ∧
      (if i / 2 % 2 = 0 then b.lo.y ≤ p.y ∧ p.y < (splitPt b).y else (splitPt b).y ≤ p.y ∧ p.y < b.hi.y) ∧
      (if i / 2 / 2 = 0 then b.lo.z ≤ p.z ∧ p.z < (splitPt b).z else (splitPt b).z ≤ p.z ∧ p.z < b.hi.z) := by
    intro i hi
    unfold Inside splitX childBox coordX
    interval_cases i <;> simp [szs] <;> tauto
  generalize (splitPt b).x = mx at *
  generalize (splitPt b).y = my at *
  generalize (splitPt b).z = mz at *
  constructor
  · intro h
    unfold Inside at h
    refine ⟨(if p.x < mx then 0 else 1) + 2 * (if p.y < my then 0 else 1) + 4 * (if p.z < mz then 0 else 1), ?_, ?_, ?_⟩
    · split <;> split <;> split <;> omega
    · rw [key _ (by split <;> split <;> split <;> omega)]
      by_cases h1 : p.x < mx <;> by_cases h2 : p.y < my <;> by_cases h3 : p.z < mz <;> simp [h1, h2, h3] <;> omega
    · intro j hj hin
      rw [key j hj] at hin
      by_cases h1 : p.x < mx <;> by_cases h2 : p.y < my <;> by_cases h3 : p.z < mz <;> simp only [h1, h2, h3, if_true, if_false] <;>
        (interval_cases j <;> simp at hin ⊢ <;> omega)
  · intro i hi hin
    rw [key i hi] at hin
    unfold Inside
    interval_cases i <;> simp at hin <;> omega

/-- C57: merging the eight parts of a block gives the block back. -/
theorem C57_merge_split (b : Box) (hx : b.lo.x ≤ b.hi.x) (hy : b.lo.y ≤ b.hi.y) (hz : b.lo.z ≤ b.hi.z) : mergeAll (splitX b) = b := by
  have hm : b.lo.x ≤ (splitPt b).x ∧ (splitPt b).x ≤ b.hi.x ∧ b.lo.y ≤ (splitPt b).y ∧ (splitPt b).y ≤ b.hi.y ∧ b.lo.z ≤ (splitPt b).z ∧ (splitPt b).z ≤ b.hi.z := by
    unfold splitPt
    dsimp only
    rw [Int.tdiv_eq_ediv_of_nonneg (by omega), Int.tdiv_eq_ediv_of_nonneg (by omega), Int.tdiv_eq_ediv_of_nonneg (by omega)]
    omega
  obtain ⟨m1, m2, m3, m4, m5, m6⟩ := hm
  obtain ⟨⟨lx, ly, lz⟩, ⟨ux, uy, uz⟩⟩ := b
  unfold mergeAll merge2 splitX childBox coordX
  simp [szs] at *
  simp [m1, m2, m3, m4, m5, m6, hx, hy, hz]

example : mergeAll (splitX ⟨⟨0, -4, 8⟩, ⟨7, 4, 16⟩⟩) = ⟨⟨0, -4, 8⟩, ⟨7, 4, 16⟩⟩ ∧
    splitX ⟨⟨0, -4, 8⟩, ⟨7, 4, 16⟩⟩ 5 = ⟨⟨3, -4, 12⟩, ⟨7, 0, 16⟩⟩ := by decide

/-- C57: the acceptance test of the derefinement holds for eight cubes exactly when they are, with `z` fastest (the Morton order), the eight parts of one
cube. -/
theorem C57_octet_test (o : Nat → Box) (hc : ∀ k < 8, ∃ s : Int, 0 < s ∧ o k = cube (o k).lo s) :
    geomOk o = true ↔ ∃ (q : V3 Int) (s : Int), 0 < s ∧ ∀ k < 8, o k = cube ⟨q.x + s * ((k / 4 : Nat) : Int), q.y + s * ((k / 2 % 2 : Nat) : Int), q.z + s * ((k % 2 : Nat) : Int)⟩ s := by
  have hk : ∀ (q : V3 Int) (s : Int) (k : Nat), kidLo q s k = ⟨q.x + s * ((k / 4 : Nat) : Int), q.y + s * ((k / 2 % 2 : Nat) : Int), q.z + s * ((k % 2 : Nat) : Int)⟩ := by
    intro q s k
    unfold kidLo coordZ
    dsimp only
    rw [show k / 2 / 2 = k / 4 by omega]
  constructor
  · intro h
    obtain ⟨q, s, h1, h2⟩ := geomOk_window o h hc
    exact ⟨q, s, h1, fun k h => by rw [← hk]; exact h2 k h⟩
  · rintro ⟨q, s, h1, h2⟩
    exact geomOk_of_window o q s h1 (fun k h => by rw [hk]; exact h2 k h)

example : geomOk (splitZ ⟨⟨0, 0, 0⟩, ⟨4, 4, 4⟩⟩) = true ∧ geomOk (splitX ⟨⟨0, 0, 0⟩, ⟨4, 4, 4⟩⟩) = false := by decide

/-- C57, a defect: the test of the older pass never accepts the eight parts of a cube in the order in which the blocks are stored (the Morton order), so that
pass never merges anything. -/
theorem C57_old_test_defect (o : Nat → Box) (q : V3 Int) (s : Int) (hs : 0 < s) (h : ∀ k < 8, o k = cube (kidLo q s k) s) : areMergeable o = false := by
  rw [Bool.eq_false_iff]
  intro hm
  unfold areMergeable at hm
  rw [List.all_eq_true] at hm
  have h1 := of_decide_eq_true (hm 1 (by simp))
  rw [mergeAll_split q s hs o h, splitX_eq _ _ (by omega), splitZ_cube q s hs _ (by decide), h 1 (by omega)] at h1
  have := (cube_inj h1).1
  unfold kidLo coordZ revBits at this
  injection this with a b c
  norm_num at a b c
  omega

example : areMergeable (splitZ ⟨⟨0, 0, 0⟩, ⟨4, 4, 4⟩⟩) = false ∧ areMergeable (splitX ⟨⟨0, 0, 0⟩, ⟨4, 4, 4⟩⟩) = true := by decide

/-! ### A pass -/

/-- C57: the refinement flags. Whatever the interleaving of the work items, the sweeps reach their fixed point before the limit of 100 sweeps, and the flagged
blocks are exactly those of the criterion and those a flagged block of a higher level touches. -/
theorem C57_refine_flags (G : Grid) (hlv : ∀ i, G.lv i < 9223372036854775808) (hmax : ∀ i < G.n, G.lv i < 99) (crit : Nat → Bool × Bool) (s1 : Nat → List Nat)
    (s2 : List Nat) : ∃ ref der, passFlags G crit s1 s2 = some (ref, der) ∧ ref.length = G.n ∧
      ∀ i < G.n, (ref[i]? = some 0 ∨ ref[i]? = some 1) ∧ (ref[i]? = some 1 ↔ MustRefine G (Wish G crit) i) := by
  obtain ⟨ref, der, h1, P⟩ := passFlags_ok hlv 99 hmax (le_refl _) crit s1 s2
  exact ⟨ref, der, h1, P.refF.1, fun i hi => ⟨P.refF.2 i hi, P.must i hi⟩⟩

/-- Where a block of the new grid comes from. -/
inductive Origin (G : Grid) (I : Interp) (crit : Nat → Bool × Bool) (bs : List Blk) : Blk → Prop
  | kept (i : Nat) (b : Blk) : bs[i]? = some b → ¬ MustRefine G (Wish G crit) i → Origin G I crit bs b
  | refined (i k : Nat) (b : Blk) : bs[i]? = some b → MustRefine G (Wish G crit) i → k < 8 →
      Origin G I crit bs ⟨splitX b.box k, fun c => refinedState I i (i * 8 + k) c⟩
  | merged (i : Nat) (o : Fin 8 → Blk) (q : V3 Int) (s : Int) : 0 < s →
      (∀ k : Fin 8, bs[i + k]? = some (o k) ∧ (critFlags G crit (i + k)).2 = 1 ∧ ¬ MustRefine G (Wish G crit) (i + k) ∧ (o k).box = cube (kidLo q s k) s) →
      Origin G I crit bs ⟨cube q (2 * s), fun c => meanCell (o c)⟩

/-- C57: a pass. Let the blocks of a patch be the leaves of an octree in depth-first order, no block more than twice as wide as one it shares a face with.
Then for every criterion and every interleaving the pass ends, the blocks are again the leaves of an octree of the patch in depth-first order, with the same
balance; every block of the new grid is a block kept as it was, one of the eight parts of a block that had to be refined, or the merger of eight blocks that all
asked for it; every part of every block that had to be refined is there. -/
theorem C57_pass {G : Grid} {E e : Nat} {lo : V3 Int} {bs : List Blk} (he : e ≤ 21) (h : Describes G E bs) (hm : Mesh e lo bs)
    (hb : Balanced (bs.map Blk.box)) (hn : 8 * bs.length ≤ 2147483646) (I : Interp) (crit : Nat → Bool × Bool) (junk : Nat → Blk) (S : PassSched)
    (ss : Nat → Nat → List Nat) (others : Bool) :
    ∃ out, amrStep G I crit junk S (cube lo (2 ^ e)) ss others bs = some out ∧ Mesh e lo out ∧ Balanced (out.map Blk.box) ∧
      (∀ b ∈ out, Origin G I crit bs b) ∧
      (∀ (i : Nat) b, bs[i]? = some b → MustRefine G (Wish G crit) i → ∀ k < 8, (⟨splitX b.box k, fun c => refinedState I i (i * 8 + k) c⟩ : Blk) ∈ out) := by
  obtain ⟨ref, der, P, hstep⟩ := amrStep_ok he h hm hb I crit junk S ss others
  obtain ⟨out, o1, o2, o3, o4⟩ := hstep [] (.inl hn)
  obtain ⟨t, ht⟩ := hm
  have hok := h.amrOk ht hb
  refine ⟨out, o1, o2, o3, ?_, ?_⟩
  · intro b hbo
    obtain ⟨i, hi, hbi⟩ := List.mem_flatMap.1 (o4.mem_iff.1 hbo)
    rw [List.mem_range] at hi
    have hg := blkAt_eq (bs := bs) (i := i) (by rw [← h.count]; exact hi)
    unfold newBlks at hbi
    by_cases hr : ref[i]? = some 1
    · rw [if_pos hr] at hbi
      obtain ⟨k, hk, rfl⟩ := List.mem_map.1 hbi
      exact .refined i k _ hg ((P.must i hi).1 hr) (List.mem_range.1 hk)
    · rw [if_neg hr] at hbi
      by_cases hd : der[i]? = some 1
      · rw [if_pos hd, List.mem_singleton] at hbi
        subst hbi
        have ho := P.oct i hi hd
        have hroom := ho.room
        obtain ⟨q, s, h1, h2, -⟩ := octet_fam hok ho
        have hB : ∀ k < 8, bs[i + k]? = some (blkAt bs (i + k)) := fun k hk => blkAt_eq (by rw [← h.count]; omega)
        have hbox : ∀ k < 8, (blkAt bs (i + k)).box = cube (kidLo q s k) s := fun k hk => by rw [← h.box _ _ (hB k hk)]; exact h2 k hk
        have e1 : Amr.merged (fun k => blkAt bs (i + k)) = ⟨cube q (2 * s), fun c => meanCell (blkAt bs (i + (c : Fin 8)))⟩ := by
          unfold Amr.merged
          congr 1
          · exact mergeAll_split q s h1 _ hbox
          · funext c
            exact restricted_mean (fun k => blkAt bs (i + k)) c
        rw [e1]
        refine .merged i (fun k => blkAt bs (i + k)) q s h1 (fun k => ⟨hB k k.isLt, ?_, ?_, hbox k k.isLt⟩)
        · have := ho.want k k.isLt
          rw [List.getElem?_map, List.getElem?_range (by omega), Option.map_some] at this
          exact Option.some.inj this
        · intro hmr
          have := (P.must (i + k) (by omega)).2 hmr
          rw [octet_kept hok P hi hd k k.isLt] at this
          cases this
      · rw [if_neg hd] at hbi
        by_cases him : inMerge der i = true
        · rw [if_pos him] at hbi; cases hbi
        · rw [if_neg him, List.mem_singleton] at hbi
          subst hbi
          exact .kept i _ hg (fun hmr => hr ((P.must i hi).2 hmr))
  · intro i b hbi hmr k hk
    have hi : i < G.n := hmr.lt
    rw [o4.mem_iff, List.mem_flatMap]
    refine ⟨i, List.mem_range.2 hi, ?_⟩
    unfold newBlks
    rw [if_pos ((P.must i hi).2 hmr), List.mem_map]
    refine ⟨k, List.mem_range.2 hk, ?_⟩
    have : blkAt bs i = b := by
      have := blkAt_eq (bs := bs) (i := i) (by rw [← h.count]; exact hi)
      rw [hbi] at this; exact (Option.some.inj this).symm
    rw [this]; rfl

/-- C57: the eight new cells that replace an old cell have the mean of the old cell in the snapshot, whatever the slopes. -/
theorem C57_refined_mean (I : Interp) (b i : Nat) : refinedState I b i 0 + refinedState I b i 1 + refinedState I b i 2 + refinedState I b i 3 +
    refinedState I b i 4 + refinedState I b i 5 + refinedState I b i 6 + refinedState I b i 7 = (8 : ℚ) • I.snap i := refined_sum I b i

/-- C57: if the state of the snapshot is physical (positive density and internal energy), so are the new ones. -/
theorem C57_refined_physical (I : Interp) (b i s : Nat) (hs : s < 8) (h : physical (I.snap i) = true) : physical (refinedState I b i s) = true := by
  unfold refinedState
  by_cases hp : (List.range 8).all (fun s => physical (interpState I b i s)) = true
  · rw [if_pos hp]
    exact List.all_eq_true.1 hp s (List.mem_range.2 hs)
  · rw [if_neg hp]; exact h

/-- C57: blocks that are the leaves of an octree tile the patch: every point of the patch is in exactly one of them, and no point outside is in any. -/
theorem C57_tiling {e : Nat} {lo : V3 Int} {bs : List Blk} (hm : Mesh e lo bs) (p : V3 Int) :
    (Inside (cube lo (2 ^ e)) p → ∃ (i : Nat) (b : Blk), bs[i]? = some b ∧ Inside b.box p ∧ ∀ (j : Nat) (b' : Blk), bs[j]? = some b' → Inside b'.box p → j = i) ∧
    (∀ b ∈ bs, Inside b.box p → Inside (cube lo (2 ^ e)) p) := by
  obtain ⟨t, ht⟩ := hm
  have hget : ∀ (j : Nat) (b' : Blk), bs[j]? = some b' → (t.boxes lo)[j]? = some b'.box := fun j b' h => by rw [← ht, List.getElem?_map, h]; rfl
  constructor
  · intro h
    obtain ⟨i, b, h1, h2⟩ := boxes_cover t lo p h
    rw [← ht, List.getElem?_map] at h1
    rcases hq : bs[i]? with _ | B
    · rw [hq] at h1; cases h1
    · rw [hq] at h1
      have h1 : B.box = b := Option.some.inj h1
      subst h1
      exact ⟨i, B, hq, h2, fun j b' hj hin => (boxes_disjoint t lo p i j _ _ (hget i B hq) (hget j b' hj) h2 hin).symm⟩
  · intro b hb hin
    exact boxes_in t lo b.box p (by rw [← ht]; exact List.mem_map_of_mem hb) hin

/-- C57: over any history of time steps and passes, the blocks of the patch stay the leaves of an octree of the patch, balanced. -/
theorem C57_history {e : Nat} (he : e ≤ 21) {lo : V3 Int} {E : Nat} {bs : List Blk} (h : Hist e lo E bs) : Mesh e lo bs ∧ Balanced (bs.map Blk.box) :=
  hist_ok he h

/-- C57: a pass whose snapshot holds the states of the blocks conserves mass, momentum and energy exactly (in exact arithmetic), for every criterion, slope
and interleaving. -/
theorem C57_conservation {G : Grid} {E e : Nat} {lo : V3 Int} {bs out : List Blk} (he : e ≤ 21) (h : Describes G E bs) (hm : Mesh e lo bs)
    (hb : Balanced (bs.map Blk.box)) (I : Interp) (hI : Fresh I bs) (crit : Nat → Bool × Bool) (junk : Nat → Blk) (S : PassSched) (ss : Nat → Nat → List Nat)
    (others : Bool) (hrun : amrStep G I crit junk S (cube lo (2 ^ e)) ss others bs = some out) : total out = total bs := by
  obtain ⟨ref, der, P, hstep⟩ := amrStep_ok he h hm hb I crit junk S ss others
  obtain ⟨out', o1, -, -, o4⟩ := hstep out (.inr hrun)
  rw [hrun] at o1
  rw [Option.some.inj o1, total_perm o4]
  obtain ⟨t, ht⟩ := hm
  have hg : ∀ i < G.n, bs[i]? = some (blkAt bs i) := fun i hi => blkAt_eq (by rw [← h.count]; exact hi)
  rw [newBlks_total (h.amrOk ht hb) P I (blkAt bs) (fun i hi => (h.box i _ (hg i hi)).symm) (fun i hi k => hI i _ (hg i hi) k), h.count, range_blkAt]

/-- C57: the content of the new grid for any snapshot: that of the old blocks, the refined ones with the states of the snapshot. -/
theorem C57_content {G : Grid} {E e : Nat} {lo : V3 Int} {bs out : List Blk} (he : e ≤ 21) (h : Describes G E bs) (hm : Mesh e lo bs)
    (hb : Balanced (bs.map Blk.box)) (I : Interp) (crit : Nat → Bool × Bool) (junk : Nat → Blk) (S : PassSched) (ss : Nat → Nat → List Nat)
    (others : Bool) (hrun : amrStep G I crit junk S (cube lo (2 ^ e)) ss others bs = some out) :
    ∃ mid : List Blk, mid.length = bs.length ∧ total out = total mid ∧ ∀ (i : Nat) b, bs[i]? = some b →
      (MustRefine G (Wish G crit) i → mid[i]? = some ⟨b.box, fun k => I.snap (i * 8 + k)⟩) ∧ (¬ MustRefine G (Wish G crit) i → mid[i]? = some b) := by
  obtain ⟨ref, der, P, hstep⟩ := amrStep_ok he h hm hb I crit junk S ss others
  obtain ⟨out', o1, -, -, o4⟩ := hstep out (.inr hrun)
  rw [hrun] at o1
  obtain ⟨t, ht⟩ := hm
  have hg : ∀ i < G.n, bs[i]? = some (blkAt bs i) := fun i hi => blkAt_eq (by rw [← h.count]; exact hi)
  refine ⟨(List.range G.n).map (withSnap I ref (blkAt bs)), by simp [h.count], ?_, ?_⟩
  · rw [Option.some.inj o1, total_perm o4, newBlks_total_snap (h.amrOk ht hb) P I (blkAt bs) (fun i hi => (h.box i _ (hg i hi)).symm)]
  · intro i b hbi
    have hi : i < G.n := by rw [h.count]; exact (List.getElem?_eq_some_iff.1 hbi).1
    have hbe : blkAt bs i = b := by have := hg i hi; rw [hbi] at this; exact (Option.some.inj this).symm
    rw [List.getElem?_map, List.getElem?_range hi, Option.map_some]
    unfold withSnap
    constructor
    · intro hmr; rw [if_pos ((P.must i hi).2 hmr), hbe]
    · intro hmr; rw [if_neg (fun q => hmr ((P.must i hi).1 q)), hbe]

end Shamrock.Amr
