import Verif.Proof.AmrMerge
import Mathlib.Data.List.Perm.Basic
/-! A whole pass. -/
namespace Shamrock.Amr

/-- What block `i` becomes. -/
def newBlks (I : Interp) (B : Nat → Blk) (ref der : List Nat) (i : Nat) : List Blk :=
  if ref[i]? = some 1 then (List.range 8).map (child I (B i).box i)
  else if der[i]? = some 1 then [merged fun k => B (i + k)]
  else if inMerge der i then [] else [B i]

theorem octCells_congr {B B' : Nat → Blk} (h : ∀ k < 8, B k = B' k) : octCells B = octCells B' := by
  unfold octCells
  apply List.map_congr_left
  intro k hk
  rw [List.mem_range] at hk
  rw [h _ (by omega)]

theorem merged_congr {B B' : Nat → Blk} (h : ∀ k < 8, B k = B' k) : merged B = merged B' := by
  unfold merged
  rw [octCells_congr h]
  congr 1
  unfold mergeAll
  dsimp only
  rw [h 0 (by omega), h 1 (by omega), h 2 (by omega), h 3 (by omega), h 4 (by omega), h 5 (by omega), h 6 (by omega), h 7 (by omega)]

section
variable {G : Grid} {e : Nat} {t : Oct e} {lo : V3 Int} {E : Nat}

/-- The pass, for every schedule. -/
theorem amrPass_ok (h : AmrOk G t lo E) (I : Interp) (crit : Nat → Bool × Bool) (junk : Nat → Blk) (S : PassSched) (bs : List Blk) (hn : bs.length = G.n)
    (B : Nat → Blk) (hB : ∀ (i : Nat), i < G.n → bs[i]? = some (B i)) :
    ∃ ref der ch out, Plan G crit ref der ∧ amrPass G I crit junk S bs = some (ch, out) ∧ out.Perm ((List.range G.n).flatMap (newBlks I B ref der)) ∧
      (ch = false → out = bs) := by
  obtain ⟨ref, der, h1, P⟩ := passFlags_ok h.lvOk 63 (fun i hi => by have := h.lv_le hi; have := h.small; omega) (by omega) crit S.sweeps S.geom
  have hr1 : ∀ i < G.n, (ref[i]? ≠ some 0 ↔ ref[i]? = some 1) := by
    intro i hi
    rcases P.refF.2 i hi with e | e <;> rw [e] <;> simp
  have hdn : ∀ d, der[d]? = some 1 → d < G.n := by
    intro d hd
    have := (List.getElem?_eq_some_iff.1 hd).1
    rw [P.derF.1] at this; exact this
  have e1 := refineGrid_ok I junk S.refine ref bs (by rw [P.refF.1, hn]) B (fun i hi => hB i (by omega))
  generalize hT : ((flagged ref).flatMap fun i => (List.range 7).map fun p => child I (B i).box i (p + 1)) = T at e1
  generalize hL : ((List.range bs.length).map fun i => if ref[i]? ≠ some 0 then child I (B i).box i 0 else B i) ++ T = L at e1
  have hLlen : L.length = G.n + T.length := by rw [← hL]; simp [hn]
  let B1 : Nat → Blk := fun i => (L[i]?).getD (B 0)
  have hB1 : ∀ (i : Nat), i < L.length → L[i]? = some (B1 i) := by
    intro i hi
    show L[i]? = some ((L[i]?).getD (B 0))
    rw [List.getElem?_eq_getElem hi]; rfl
  have hB1a : ∀ i < G.n, B1 i = if ref[i]? = some 1 then child I (B i).box i 0 else B i := by
    intro i hi
    have h2 := hB1 i (by omega)
    rw [← hL, List.getElem?_append_left (by simpa [hn] using hi), List.getElem?_map, List.getElem?_range (by omega), Option.map_some] at h2
    rw [← Option.some.inj h2]
    by_cases hr : ref[i]? = some 1
    · rw [if_pos hr, if_pos ((hr1 i hi).2 hr)]
    · rw [if_neg hr, if_neg (fun q => hr ((hr1 i hi).1 q))]
  have hB1b : (List.range T.length).map (fun j => B1 (G.n + j)) = T := by
    apply List.ext_getElem?
    intro j
    rcases Nat.lt_or_ge j T.length with hj | hj
    · rw [List.getElem?_map, List.getElem?_range hj, Option.map_some, ← hB1 _ (by omega), ← hL, List.getElem?_append_right (by simp [hn])]
      simp [hn]
    · rw [List.getElem?_eq_none hj, List.getElem?_eq_none (by simpa using hj)]
  have e2 := derefineGrid_ok S.derefine der L B1 hB1 (fun i hi => P.derF.2 i (by rw [← P.derF.1]; exact hi))
    (fun d hd => by have := (P.oct d (hdn d hd) hd).room; omega) (fun d d' hd hd' => octet_disjoint h P hd hd')
  refine ⟨ref, der, decide (0 < (flagged ref).length ∨ 0 < (flagged der).length), (List.range L.length).flatMap fun i => if der[i]? = some 1 then [merged fun k => B1 (i + k)] else if inMerge der i then [] else [B1 i], P, ?_, ?_, ?_⟩
  · unfold amrPass
    simp only [h1, Option.bind_eq_bind, Option.bind_some, e1, e2, Option.pure_def]
  · rw [hLlen, List.range_add, List.flatMap_append]
    clear e1 e2
    have hkept : ∀ i, inMerge der i = true → i < G.n ∧ ref[i]? = some 0 := by
      intro i hi
      obtain ⟨d, d1, d2, d3⟩ := (inMerge_iff der i).1 hi
      have d1 := of_decide_eq_true d1
      have := octet_kept h P (hdn d d1) d1 (i - d) (by omega)
      have hroom := (P.oct d (hdn d d1) d1).room
      rw [show d + (i - d) = i by omega] at this
      exact ⟨by omega, this⟩
    have htail : (((List.range T.length).map (G.n + ·)).flatMap fun i => if der[i]? = some 1 then [merged fun k => B1 (i + k)] else if inMerge der i then [] else [B1 i]) = T := by
      rw [List.flatMap_map]
      conv_rhs => rw [← hB1b, ← flatMap_single']
      apply List.flatMap_congr
      intro j _
      rw [if_neg (fun q => by have := hdn _ q; omega), if_neg (fun q => by have := (hkept _ q).1; omega)]
    rw [htail]
    have hT' : T = (List.range G.n).flatMap fun i => if ref[i]? = some 1 then (List.range 7).map fun p => child I (B i).box i (p + 1) else [] := by
      rw [← hT]
      unfold flagged
      rw [P.refF.1, List.flatMap_def, filter_map_flat, List.flatten_eq_flatMap, List.flatMap_assoc]
      apply List.flatMap_congr
      intro i hi
      rw [List.mem_range] at hi
      by_cases hr : ref[i]? = some 1
      · rw [if_pos hr, if_pos (by simpa using (hr1 i hi).2 hr)]; simp
      · rw [if_neg hr, if_neg (by simpa using fun q => hr ((hr1 i hi).1 q))]; rfl
    rw [hT']
    refine (List.flatMap_append_perm _ _ _).trans ?_
    apply List.Perm.of_eq
    apply List.flatMap_congr
    intro i hi
    rw [List.mem_range] at hi
    unfold newBlks
    by_cases hr : ref[i]? = some 1
    · rw [if_pos hr, if_pos hr]
      have hni : ¬ inMerge der i = true := fun q => by rw [(hkept i q).2] at hr; simp at hr
      have hnd : der[i]? ≠ some 1 := fun q => by have := (P.oct i hi q).keep; rw [hr] at this; cases this
      rw [if_neg hnd, if_neg hni, hB1a i hi, if_pos hr, List.range_succ_eq_map, List.map_cons, List.map_map]
      rfl
    · rw [if_neg hr, if_neg hr, List.append_nil]
      by_cases hd : der[i]? = some 1
      · rw [if_pos hd, if_pos hd]
        congr 1
        apply merged_congr
        intro k hk
        have hroom := (P.oct i hi hd).room
        rw [hB1a _ (by omega), octet_kept h P hi hd k hk, if_neg (by simp)]
      · rw [if_neg hd, if_neg hd]
        by_cases hm : inMerge der i = true
        · rw [if_pos hm, if_pos hm]
        · rw [if_neg hm, if_neg hm, hB1a i hi, if_neg hr]
  · intro hch
    have hch := of_decide_eq_false hch
    have f1 : ¬ 0 < (flagged ref).length := fun q => hch (.inl q)
    have f2 : ¬ 0 < (flagged der).length := fun q => hch (.inr q)
    unfold refineGrid at e1
    dsimp only at e1
    rw [if_neg f1] at e1
    unfold derefineGrid at e2
    dsimp only at e2
    rw [if_neg f2, ← Option.some.inj e1] at e2
    rw [← Option.some.inj e1]
    exact (Option.some.inj e2).symm

theorem splitX_perm (b : Box) : ((List.range 8).map (splitX b)).Perm ((List.range 8).map (splitZ b)) := by
  have h1 : (List.range 8).map (splitX b) = ((List.range 8).map revBits).map (splitZ b) := by
    rw [List.map_map]
    apply List.map_congr_left
    intro i hi
    exact splitX_eq b i (List.mem_range.1 hi)
  rw [h1]
  exact List.Perm.map _ (by decide)

/-- The bounds of the new blocks. -/
theorem newBlks_boxes (I : Interp) (B : Nat → Blk) (hB : ∀ i < G.n, (B i).box = G.box i) (crit : Nat → Bool × Bool) {ref der : List Nat} (P : Plan G crit ref der) :
    (((List.range G.n).flatMap (newBlks I B ref der)).map Blk.box).Perm ((List.range G.n).flatMap (outBoxes G ref der)) := by
  rw [List.map_flatMap]
  apply List.Perm.flatMap_left
  intro i hi
  rw [List.mem_range] at hi
  unfold newBlks outBoxes
  by_cases hr : ref[i]? = some 1
  · rw [if_pos hr, if_pos hr, List.map_map, ← hB i hi]
    exact splitX_perm _
  · rw [if_neg hr, if_neg hr]
    by_cases hd : der[i]? = some 1
    · rw [if_pos hd, if_pos hd]
      have hroom := (P.oct i hi hd).room
      apply List.Perm.of_eq
      rw [List.map_cons, List.map_nil]
      congr 1
      unfold merged mergeAll
      dsimp only
      rw [hB _ (by omega), hB _ (by omega), hB _ (by omega), hB _ (by omega), hB _ (by omega), hB _ (by omega), hB _ (by omega), hB _ (by omega)]
    · rw [if_neg hd, if_neg hd]
      by_cases hm : inMerge der i = true
      · rw [if_pos hm, if_pos hm]; exact List.Perm.refl _
      · rw [if_neg hm, if_neg hm, List.map_cons, List.map_nil, hB i hi]

/-- The bounds of the new blocks are the leaves of an octree, in depth-first order. -/
theorem out_tree (h : AmrOk G t lo E) {crit : Nat → Bool × Bool} {ref der : List Nat} (P : Plan G crit ref der) :
    ∃ t' : Oct e, t'.boxes lo = (List.range G.n).flatMap (outBoxes G ref der) := by
  have := upd_boxes t lo 0 (out_ok h P)
  rw [← h.count, ← List.range_eq_range'] at this
  exact ⟨_, this⟩

end

end Shamrock.Amr
