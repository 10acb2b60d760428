import Verif.Proof.AmrRefine
import Verif.Proof.AmrOut
/-! The derefinement kernel: what it leaves in the blocks, for every schedule. -/
namespace Shamrock.Amr

/-- Reads only: a list of reads folds over the private state. -/
theorem itemRun_reads {L α : Type} (g : Nat → Nat) (f : Nat → L → α → L) (v : Nat → α) (m : List α) : ∀ n (l : L), (∀ k < n, m[g k]? = some (v k)) →
    itemRun ((List.range n).map fun k => (fun l m => (m[g k]?).map fun o => (f k l o, m) : KStep L α)) l m =
      some ((List.range n).foldl (fun l k => f k l (v k)) l, m) := by
  intro n
  induction n with
  | zero => intro l _; rfl
  | succ n ih =>
    intro l h
    rw [List.range_succ, List.map_append, itemRun_append, ih l (fun k hk => h k (by omega)), Option.bind_some, List.foldl_append]
    rw [List.map_cons, List.map_nil, itemRun_cons _ _ _ _ _ _ (show _ = some (_, m) by dsimp only; rw [h n (by omega), Option.map_some])]
    rfl

/-- The states of the 64 cells of an octet, block after block. -/
def octCells (B : Nat → Blk) : List Cons := (List.range 64).map fun k => (B (k / 8)).cell ⟨k % 8, Nat.mod_lt _ (by decide)⟩

/-- The merged block. -/
def merged (B : Nat → Blk) : Blk := ⟨mergeAll fun k => (B k).box, fun c => restricted (octCells B) c⟩

/-- The mean of the cells of a block. -/
def meanCell (b : Blk) : Cons := (1 / 8 : ℚ) • (((((((b.cell 0 + b.cell 1) + b.cell 2) + b.cell 3) + b.cell 4) + b.cell 5) + b.cell 6) + b.cell 7)

theorem restricted_mean (B : Nat → Blk) (c : Fin 8) : restricted (octCells B) c = meanCell (B c) := by
  unfold restricted meanCell octCells
  rw [show List.range 64 = (List.range 8).flatMap fun p => (List.range 8).map fun k => p * 8 + k by decide]
  congr 1
  have e : ∀ p < 8, ∀ (k : Nat) (hk : k < 8), ∀ h, (B ((p * 8 + k) / 8)).cell ⟨(p * 8 + k) % 8, h⟩ = (B p).cell ⟨k, hk⟩ := by
    intro p hp k hk h
    have h1 : (p * 8 + k) / 8 = p := by omega
    have h2 : (p * 8 + k) % 8 = k := by omega
    rw [h1]
    congr 1
    exact Fin.ext h2
  have hb : ((List.range 8).flatMap fun p => (List.range 8).map fun k => p * 8 + k).map
      (fun k => (B (k / 8)).cell ⟨k % 8, Nat.mod_lt _ (by decide)⟩) =
      (List.range 8).flatMap fun p => [(B p).cell 0, (B p).cell 1, (B p).cell 2, (B p).cell 3, (B p).cell 4, (B p).cell 5, (B p).cell 6, (B p).cell 7] := by
    rw [List.map_flatMap]
    apply List.flatMap_congr
    intro p hp
    rw [List.mem_range] at hp
    rw [List.map_map]
    show [_, _, _, _, _, _, _, _] = _
    rw [List.cons.injEq, List.cons.injEq, List.cons.injEq, List.cons.injEq, List.cons.injEq, List.cons.injEq, List.cons.injEq, List.cons.injEq]
    exact ⟨e p hp 0 (by omega) _, e p hp 1 (by omega) _, e p hp 2 (by omega) _, e p hp 3 (by omega) _, e p hp 4 (by omega) _,
      e p hp 5 (by omega) _, e p hp 6 (by omega) _, e p hp 7 (by omega) _, rfl⟩
  rw [hb]
  have hd : ∀ (n c : Nat) (F : Nat → List Cons), (∀ p, (F p).length = 8) → c < n → (((List.range n).flatMap F).drop (8 * c)).take 8 = F c := by
    intro n c F hF hc
    induction n with
    | zero => omega
    | succ n ih =>
      have hlen : ((List.range n).flatMap F).length = 8 * n := by
        clear ih hc
        induction n with
        | zero => rfl
        | succ n ih => rw [List.range_succ, List.flatMap_append, List.length_append, ih]; simp [hF]; omega
      rw [List.range_succ, List.flatMap_append]
      rcases Nat.lt_or_ge c n with h | h
      · rw [List.drop_append_of_le_length (by omega), List.take_append_of_le_length (by rw [List.length_drop]; omega)]
        exact ih h
      · have : c = n := by omega
        subst this
        rw [show 8 * c = ((List.range c).flatMap F).length by omega, List.drop_left]
        simp only [List.flatMap_cons, List.flatMap_nil, List.append_nil]
        rw [← hF c, List.take_length]
  rw [hd 8 c _ (fun p => rfl) c.isLt]
  simp only [List.foldl_cons, List.foldl_nil, zero_add]

theorem writeMerged_eq (i : Nat) : writeMerged i = updStep i fun (l : MergeLoc) (o : Blk × Nat) =>
    ({ o.1 with box := mergeAll fun k => (l.boxes[k]?).getD box0 }, o.2) := rfl

theorem dropKeep_eq (i : Nat) : dropKeep i = updStep i fun (_ : MergeLoc) (o : Blk × Nat) => (o.1, 0) := rfl

theorem writeRestricted_eq (i c : Nat) : writeRestricted i c = updStep i fun (l : MergeLoc) (o : Blk × Nat) =>
    ({ o.1 with cell := fun k => if k.val = c then restricted l.cells c else o.1.cell k }, o.2) := rfl

theorem readBoxes_run (idx : Nat) (m : List (Blk × Nat)) (v : Nat → Blk × Nat) (n : Nat) (hm : ∀ k < n, m[idx + k]? = some (v k)) (l : MergeLoc) :
    itemRun ((List.range n).map fun pid => readBoxes (idx + pid)) l m = some (⟨l.boxes ++ (List.range n).map fun k => (v k).1.box, l.cells⟩, m) := by
  have h := itemRun_reads (fun k => idx + k) (fun _ (l : MergeLoc) (o : Blk × Nat) => { l with boxes := l.boxes ++ [o.1.box] }) v m n l hm
  refine Eq.trans h ?_
  congr 2
  clear h hm
  induction n with
  | zero => simp
  | succ n ih => rw [List.range_succ, List.foldl_append, ih, List.map_append]; simp

theorem readCells_run (idx : Nat) (m : List (Blk × Nat)) (v : Nat → Blk × Nat) (n : Nat) (hm : ∀ k < 8, m[idx + k]? = some (v k)) (hn : n ≤ 64) (l : MergeLoc) :
    itemRun ((List.range n).map fun k => readCell ((idx + k / 8) * 8 + k % 8)) l m =
      some (⟨l.boxes, l.cells ++ (List.range n).map fun k => (v (k / 8)).1.cell ⟨k % 8, Nat.mod_lt _ (by decide)⟩⟩, m) := by
  have h := itemRun_reads (fun k => ((idx + k / 8) * 8 + k % 8) / 8) (fun k (l : MergeLoc) (o : Blk × Nat) => { l with cells := l.cells ++
    [o.1.cell ⟨((idx + k / 8) * 8 + k % 8) % 8, Nat.mod_lt _ (by decide)⟩] }) (fun k => v (k / 8)) m n l (fun k hk => by
      rw [show ((idx + k / 8) * 8 + k % 8) / 8 = idx + k / 8 by omega]; exact hm _ (by omega))
  refine Eq.trans h ?_
  congr 2
  clear h hm
  induction n with
  | zero => simp
  | succ n ih =>
    rw [List.range_succ, List.foldl_append, ih (by omega), List.map_append]
    simp only [List.foldl_cons, List.foldl_nil, List.map_cons, List.map_nil, MergeLoc.mk.injEq, true_and, List.append_assoc]
    congr 3
    congr 1
    apply Fin.ext
    show ((idx + n / 8) * 8 + n % 8) % 8 = n % 8
    omega

theorem dropAll_run (idx : Nat) (m : List (Blk × Nat)) (v : Nat → Blk × Nat) (hm : ∀ k < 8, m[idx + k]? = some (v k)) (l : MergeLoc) :
    ∃ m', itemRun ([writeMerged idx] ++ (List.range 7).map fun k => dropKeep (idx + (k + 1))) l m = some (l, m') ∧
      m'[idx]? = some ({ (v 0).1 with box := mergeAll fun k => (l.boxes[k]?).getD box0 }, (v 0).2) ∧
      (∀ k, 1 ≤ k → k < 8 → m'[idx + k]? = some ((v k).1, 0)) := by
  let us : List (Nat × (MergeLoc → Blk × Nat → Blk × Nat)) := (idx, fun (l : MergeLoc) (o : Blk × Nat) =>
    ({ o.1 with box := mergeAll fun k => (l.boxes[k]?).getD box0 }, o.2)) :: (List.range 7).map fun k => (idx + (k + 1), fun (_ : MergeLoc) (o : Blk × Nat) => (o.1, 0))
  obtain ⟨m', h1, h2, h3⟩ := itemRun_upds us l m (fun u hu => by
    rcases List.mem_cons.1 hu with rfl | hu
    · exact (List.getElem?_eq_some_iff.1 (hm 0 (by omega))).1
    · obtain ⟨k, hk, rfl⟩ := List.mem_map.1 hu
      rw [List.mem_range] at hk
      exact (List.getElem?_eq_some_iff.1 (hm (k + 1) (by omega))).1)
  have hs : us.map (fun u => (u.1, u.2 l)) = [(idx + 0, fun (o : Blk × Nat) => (({ o.1 with box := mergeAll fun k => (l.boxes[k]?).getD box0 } : Blk), o.2))] ++
      (List.range 7).flatMap fun a => [fun (o : Blk × Nat) => (o.1, 0)].map fun f => (idx + (a + 1), f) := by
    simp only [us, List.map_cons, List.map_nil, List.map_map, Function.comp_def, flatMap_single', List.cons_append, List.nil_append, Nat.add_zero]
  refine ⟨m', ?_, ?_, ?_⟩
  · rw [← h1]
    simp only [us, List.map_cons, List.map_map, Function.comp_def, List.cons_append, List.nil_append]
    rfl
  · have h := h3 idx
    have h0 := hm 0 (by omega)
    rw [Nat.add_zero] at h0
    rw [h, h0, Option.map_some, hs, applyAt_append]
    congr 1
    have hout : ∀ (n : Nat) (o : Blk × Nat), applyAt ((List.range n).flatMap fun a => [fun (o : Blk × Nat) => (o.1, 0)].map fun f => (idx + (a + 1), f)) idx o = o := by
      intro n o
      induction n with
      | zero => rfl
      | succ n ih =>
        rw [List.range_succ, List.flatMap_append, applyAt_append, ih]
        simp [applyAt]
    rw [hout]
    simp [applyAt]
  · intro k k1 k2
    rw [h3, hm k k2, Option.map_some, hs, applyAt_append]
    congr 1
    obtain ⟨j, rfl⟩ : ∃ j, k = j + 1 := ⟨k - 1, by omega⟩
    have := applyAt_groups (fun a => idx + (a + 1)) (fun _ => [fun (o : Blk × Nat) => (o.1, 0)]) j 7 (by omega) (fun a _ e => by simpa using e)
      (applyAt [(idx + 0, fun (o : Blk × Nat) => (({ o.1 with box := mergeAll fun k => (l.boxes[k]?).getD box0 } : Blk), o.2))] (idx + (j + 1)) (v (j + 1)))
    refine this.trans ?_
    simp [applyAt]

theorem fill_merged (v : Nat → Cons) (o : Blk × Nat) (i : Nat) : ∀ n, applyAt ((List.range n).map fun c => (i, fun (o : Blk × Nat) =>
    (({ o.1 with cell := fun k => if k.val = c then v c else o.1.cell k } : Blk), o.2))) i o = (⟨o.1.box, fun k => if k.val < n then v k else o.1.cell k⟩, o.2) := by
  intro n
  induction n with
  | zero => rfl
  | succ n ih =>
    rw [List.range_succ, List.map_append, applyAt_append, ih]
    simp only [List.map_cons, List.map_nil, applyAt, List.foldl_cons, List.foldl_nil, if_true, Prod.mk.injEq, Blk.mk.injEq, true_and, and_true]
    funext k
    by_cases h1 : k.val = n
    · rw [if_pos h1, if_pos (by omega), h1]
    · rw [if_neg h1]
      by_cases h2 : k.val < n
      · rw [if_pos h2, if_pos (by omega)]
      · rw [if_neg h2, if_neg (by omega)]

theorem writeAll_run (idx : Nat) (m : List (Blk × Nat)) (o : Blk × Nat) (hm : m[idx]? = some o) (l : MergeLoc) :
    ∃ m', itemRun ((List.range 8).map fun c => writeRestricted idx c) l m = some (l, m') ∧
      m'[idx]? = some (⟨o.1.box, fun k => restricted l.cells k⟩, o.2) ∧ ∀ (i : Nat), i ≠ idx → m'[i]? = m[i]? := by
  let us : List (Nat × (MergeLoc → Blk × Nat → Blk × Nat)) := (List.range 8).map fun c => (idx, fun (l : MergeLoc) (o : Blk × Nat) =>
    (({ o.1 with cell := fun k => if k.val = c then restricted l.cells c else o.1.cell k } : Blk), o.2))
  obtain ⟨m', h1, h2, h3⟩ := itemRun_upds us l m (fun u hu => by
    obtain ⟨k, hk, rfl⟩ := List.mem_map.1 hu
    exact (List.getElem?_eq_some_iff.1 hm).1)
  have hs : us.map (fun u => (u.1, u.2 l)) = (List.range 8).map fun c => (idx, fun (o : Blk × Nat) =>
    (({ o.1 with cell := fun k => if k.val = c then restricted l.cells c else o.1.cell k } : Blk), o.2)) := by
    simp only [us, List.map_map, Function.comp_def]
  refine ⟨m', ?_, ?_, ?_⟩
  · rw [← h1]
    simp only [us, List.map_map, Function.comp_def]
    rfl
  · rw [h3, hm, Option.map_some, hs, fill_merged]
    simp
  · intro i hi
    rw [h3, hs]
    have : ∀ (n : Nat) (o : Blk × Nat), applyAt ((List.range n).map fun c => (idx, fun (o : Blk × Nat) =>
        (({ o.1 with cell := fun k => if k.val = c then restricted l.cells c else o.1.cell k } : Blk), o.2))) i o = o := by
      intro n o
      induction n with
      | zero => rfl
      | succ n ih =>
        rw [List.range_succ, List.map_append, applyAt_append, ih]
        simp [applyAt, Ne.symm hi]
    cases m[i]? with
    | none => rfl
    | some o => rw [Option.map_some, this]

/-- One item of the derefinement kernel running alone. -/
theorem derefineItem_run (todo : List Nat) (tid idx : Nat) (h : todo[tid]? = some idx) (m : List (Blk × Nat)) (B : Nat → Blk)
    (hm : ∀ k < 8, m[idx + k]? = some (B k, 1)) :
    ∃ l' m', itemRun (derefineItem todo tid) ⟨[], []⟩ m = some (l', m') ∧ m'[idx]? = some (merged B, 1) ∧
      ∀ k, 1 ≤ k → k < 8 → m'[idx + k]? = some (B k, 0) := by
  obtain ⟨m1, a1, a2, a3⟩ := dropAll_run idx m (fun k => (B k, 1)) hm ⟨(List.range 8).map fun k => (B k).box, []⟩
  have hb := readBoxes_run idx m (fun k => (B k, 1)) 8 hm ⟨[], []⟩
  have hc := readCells_run idx m1 (fun k => if k = 0 then ({ B 0 with box := mergeAll fun k => (((List.range 8).map fun k => (B k).box)[k]?).getD box0 }, 1) else (B k, 0)) 64
    (fun k hk => by
      by_cases h0 : k = 0
      · subst h0; rw [if_pos rfl, Nat.add_zero]; exact a2
      · rw [if_neg h0]; exact a3 k (by omega) hk) (le_refl _) ⟨(List.range 8).map fun k => (B k).box, []⟩
  obtain ⟨m2, d1, d2, d3⟩ := writeAll_run idx m1 _ a2 ⟨(List.range 8).map fun k => (B k).box, octCells B⟩
  have hcells : ([] ++ (List.range 64).map fun k => (if k / 8 = 0 then (({ B 0 with box := mergeAll fun k => (((List.range 8).map fun k => (B k).box)[k]?).getD box0 } : Blk), 1)
      else (B (k / 8), 0)).1.cell ⟨k % 8, Nat.mod_lt _ (by decide)⟩) = octCells B := by
    rw [List.nil_append]
    unfold octCells
    apply List.map_congr_left
    intro k _
    by_cases h0 : k / 8 = 0
    · rw [if_pos h0, h0]
    · rw [if_neg h0]
  refine ⟨⟨(List.range 8).map fun k => (B k).box, octCells B⟩, m2, ?_, ?_, ?_⟩
  · unfold derefineItem
    rw [h]
    dsimp only
    rw [itemRun_append, itemRun_append, List.append_assoc, itemRun_append, hb, Option.bind_some]
    dsimp only
    rw [List.nil_append, a1, Option.bind_some]
    dsimp only
    rw [hc, Option.bind_some]
    dsimp only
    dsimp only at hcells
    rw [hcells]
    exact d1
  · rw [d2]
    unfold merged
    congr 3
  · intro k k1 k2
    rw [d3 _ (by omega), a3 k k1 k2]

/-- The entries an item of the derefinement kernel touches. -/
def derFoot (todo : List Nat) (t i : Nat) : Prop := ∃ idx, todo[t]? = some idx ∧ idx ≤ i ∧ i < idx + 8

theorem derefineItem_local (todo : List Nat) (t idx : Nat) (h : todo[t]? = some idx) (s : KStep MergeLoc (Blk × Nat)) (hs : s ∈ derefineItem todo t) :
    LocalStep (derFoot todo t) s := by
  have hf : ∀ (k : Nat), k < 8 → derFoot todo t (idx + k) := fun k hk => ⟨idx, h, by omega, by omega⟩
  have hf0 : derFoot todo t idx := hf 0 (by omega)
  unfold derefineItem at hs
  rw [h] at hs
  dsimp only at hs
  simp only [List.mem_append, List.mem_map, List.mem_singleton] at hs
  rcases hs with (((⟨k, hk, rfl⟩ | rfl) | ⟨k, hk, rfl⟩) | ⟨k, hk, rfl⟩) | ⟨k, hk, rfl⟩
  · exact readStep_local (derFoot todo t) _ (hf k (List.mem_range.1 hk)) (fun (l : MergeLoc) (b : Blk × Nat) => { l with boxes := l.boxes ++ [b.1.box] })
  · rw [writeMerged_eq]; exact updStep_local _ _ hf0 _
  · rw [dropKeep_eq]
    have := List.mem_range.1 hk
    exact updStep_local _ _ (hf _ (by omega)) _
  · have := List.mem_range.1 hk
    refine readStep_local (derFoot todo t) _ ?_ (fun (l : MergeLoc) (b : Blk × Nat) => { l with cells := l.cells ++
      [b.1.cell ⟨((idx + k / 8) * 8 + k % 8) % 8, Nat.mod_lt _ (by decide)⟩] })
    rw [show ((idx + k / 8) * 8 + k % 8) / 8 = idx + k / 8 by omega]
    exact hf _ (by omega)
  · rw [writeRestricted_eq]; exact updStep_local _ _ hf0 _

theorem filter_map_flat {α β : Type} (p : α → Bool) (g : α → β) : ∀ l : List α, (l.filter p).map g = l.flatMap fun x => if p x then [g x] else [] := by
  intro l
  induction l with
  | nil => rfl
  | cons a l ih =>
    rw [List.flatMap_cons, ← ih]
    by_cases h : p a = true
    · rw [List.filter_cons_of_pos h, if_pos h]; rfl
    · rw [List.filter_cons_of_neg h, if_neg h]; rfl

/-- The derefinement of a patch, whatever the schedule. -/
theorem derefineGrid_ok (sched : List Nat) (der : List Nat) (bs : List Blk) (B : Nat → Blk) (hB : ∀ (i : Nat), i < bs.length → bs[i]? = some (B i))
    (hbin : ∀ (i : Nat), i < der.length → der[i]? = some 0 ∨ der[i]? = some 1) (hroom : ∀ (d : Nat), der[d]? = some 1 → d + 8 ≤ bs.length)
    (hdis : ∀ (d d' : Nat), der[d]? = some 1 → der[d']? = some 1 → d ≤ d' → d' < d + 8 → d = d') :
    derefineGrid sched der bs = some ((List.range bs.length).flatMap fun i =>
      if der[i]? = some 1 then [merged fun k => B (i + k)] else if inMerge der i then [] else [B i]) := by
  have hmem : ∀ i, i ∈ flagged der ↔ der[i]? = some 1 := by
    intro i
    rw [flagged_mem]
    constructor
    · rintro ⟨h1, h2⟩
      rcases hbin i h1 with e | e
      · exact absurd e h2
      · exact e
    · intro h
      refine ⟨(List.getElem?_eq_some_iff.1 h).1, by rw [h]; simp⟩
  have hnd := flagged_nodup der
  have hin : ∀ i, inMerge der i = true ↔ ∃ d, der[d]? = some 1 ∧ d ≤ i ∧ i < d + 8 := by
    intro i
    rw [inMerge_iff]
    unfold Covered
    simp
  have hbs : bs = (List.range bs.length).map B := by
    apply List.ext_getElem?
    intro i
    rcases Nat.lt_or_ge i bs.length with h | h
    · rw [hB i h, List.getElem?_map, List.getElem?_range h, Option.map_some]
    · rw [List.getElem?_eq_none h, List.getElem?_eq_none (by simpa using h)]
  unfold derefineGrid
  dsimp only
  generalize flagged der = todo at *
  by_cases h0 : 0 < todo.length
  · rw [if_pos h0]
    have hget : ∀ (i : Nat), i < bs.length → (bs.map fun b => (b, 1))[i]? = some (B i, 1) := by
      intro i hi
      rw [List.getElem?_map, hB i hi, Option.map_some]
    have hlen : (bs.map fun b => (b, 1)).length = bs.length := List.length_map _
    generalize (bs.map fun b => (b, 1)) = m0 at *
    have hrun : ∀ (t : Nat), t < todo.length → ∃ m', (∃ l', itemRun (derefineItem todo t) ⟨[], []⟩ m0 = some (l', m')) ∧ ∀ (idx : Nat), todo[t]? = some idx →
        m'[idx]? = some (merged fun k => B (idx + k), 1) ∧ ∀ k, 1 ≤ k → k < 8 → m'[idx + k]? = some (B (idx + k), 0) := by
      intro t ht
      have h1 := List.getElem?_eq_getElem ht
      have hr := hroom _ ((hmem _).1 (List.mem_of_getElem? h1))
      obtain ⟨l', m', a, b, c⟩ := derefineItem_run todo t _ h1 m0 (fun k => B (todo[t] + k)) (fun k hk => hget _ (by omega))
      refine ⟨m', ⟨_, a⟩, fun idx hidx => ?_⟩
      rw [h1] at hidx
      rw [← Option.some.inj hidx]
      exact ⟨b, c⟩
    choose! res hres hval using hrun
    obtain ⟨out, o1, o2, o3, o4⟩ := kLaunch_disjoint todo.length (derefineItem todo) ⟨[], []⟩ (derFoot todo) (by
      rintro t ht t' ht' hne i ⟨idx, a1, a2, a3⟩ ⟨idx', b1, b2, b3⟩
      have hi := (hmem _).1 (List.mem_of_getElem? a1)
      have hi' := (hmem _).1 (List.mem_of_getElem? b1)
      have e : idx = idx' := by
        rcases Nat.le_total idx idx' with h | h
        · exact hdis _ _ hi hi' h (by omega)
        · exact (hdis _ _ hi' hi h (by omega)).symm
      subst e
      have h1 := (List.getElem?_eq_some_iff.1 a1)
      have h2 := (List.getElem?_eq_some_iff.1 b1)
      exact hne ((List.Nodup.getElem_inj_iff hnd (hi := h1.1) (hj := h2.1)).1 (h1.2.trans h2.2.symm))) (by
      intro t ht s hs
      exact derefineItem_local todo t _ (List.getElem?_eq_getElem ht) s hs) m0 res hres sched
    rw [o1]
    simp only [Option.bind_eq_bind, Option.bind_some, Option.pure_def, Option.some.injEq]
    have hout : out = (List.range bs.length).map fun i => if der[i]? = some 1 then (merged fun k => B (i + k), 1) else if inMerge der i then (B i, 0) else (B i, 1) := by
      apply List.ext_getElem?
      intro i
      rcases Nat.lt_or_ge i bs.length with h | h
      · rw [List.getElem?_map, List.getElem?_range h, Option.map_some]
        by_cases hd : der[i]? = some 1
        · rw [if_pos hd]
          obtain ⟨t, ht⟩ := List.getElem?_of_mem ((hmem i).2 hd)
          have htl := (List.getElem?_eq_some_iff.1 ht).1
          rw [o3 t htl i ⟨i, ht, by omega, by omega⟩]
          exact (hval t htl i ht).1
        · rw [if_neg hd]
          by_cases hm : inMerge der i = true
          · rw [if_pos hm]
            obtain ⟨d, d1, d2, d3⟩ := (hin i).1 hm
            have hne : d ≠ i := by rintro rfl; exact hd d1
            obtain ⟨t, ht⟩ := List.getElem?_of_mem ((hmem d).2 d1)
            have htl := (List.getElem?_eq_some_iff.1 ht).1
            rw [o3 t htl i ⟨d, ht, by omega, by omega⟩]
            have := (hval t htl d ht).2 (i - d) (by omega) (by omega)
            rw [show d + (i - d) = i by omega] at this
            exact this
          · rw [if_neg hm, o4 i ?_, hget i h]
            rintro t ht ⟨idx, h1, h2, h3⟩
            exact hm ((hin i).2 ⟨idx, (hmem _).1 (List.mem_of_getElem? h1), h2, h3⟩)
      · rw [List.getElem?_eq_none (by omega), List.getElem?_eq_none (by simpa using h)]
    rw [hout, filter_map_flat, List.flatMap_map]
    apply List.flatMap_congr
    intro i _
    by_cases hd : der[i]? = some 1
    · rw [if_pos hd, if_pos hd]; rfl
    · rw [if_neg hd, if_neg hd]
      by_cases hm : inMerge der i = true
      · rw [if_pos hm, if_pos hm]; rfl
      · rw [if_neg hm, if_neg hm]; rfl
  · rw [if_neg h0]
    have hnil : todo = [] := List.eq_nil_of_length_eq_zero (by omega)
    subst hnil
    congr 1
    have hno : ∀ i, der[i]? ≠ some 1 := fun i h => absurd ((hmem i).2 h) List.not_mem_nil
    conv_lhs => rw [hbs, ← flatMap_single']
    apply List.flatMap_congr
    intro i _
    rw [if_neg (hno i), if_neg]
    intro h
    obtain ⟨d, h1, -⟩ := (hin i).1 h
    exact hno d h1

end Shamrock.Amr
