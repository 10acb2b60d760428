import Verif.Proof.OddEven
/-! C11: insertion sorts; C12: odd-even transposition network. -/
namespace Shamrock

/-- C11: `ptr_insert_sort` turns `[s, e)` into a sorted permutation of itself and changes nothing outside. -/
theorem C11_insert_sort {α} (comp : α → α → Bool) (hw : StrictWeak comp) (data : List α) (s e : Nat) (h : s ≤ e)
    (h2 : e ≤ data.length) :
    ∃ out, ptrInsertSort comp s e data = some out ∧ out.length = data.length ∧ CompSorted comp (seg out s e) ∧
      (seg out s e).Perm (seg data s e) ∧ ∀ i : Nat, i < s ∨ e ≤ i → out[i]? = data[i]? := by
  rcases Nat.lt_or_eq_of_le h with hlt | heq
  · exact ptrInsertSort_spec comp hw data s e hlt h2
  · subst heq
    refine ⟨data, ?_, rfl, ?_, List.Perm.refl _, fun _ _ => rfl⟩
    · unfold ptrInsertSort
      have : s - (s + 1) = 0 := by omega
      rw [this]; rfl
    · simp [CompSorted, seg]

/-- The offsets describe `offsets.length - 1` consecutive segments of a buffer of `n` elements (the asserted preconditions,
segmented_sort_in_place.cpp:44-57). -/
def OffsetsOk (offsets : List Nat) (n : Nat) : Prop :=
  ∀ (g s e : Nat), offsets[g]? = some s → offsets[g + 1]? = some e → s ≤ e ∧ e ≤ n

theorem offsets_mono (offsets : List Nat) (n : Nat) (ho : OffsetsOk offsets n) :
    ∀ (d g s e : Nat), offsets[g]? = some s → offsets[g + d]? = some e → s ≤ e := by
  intro d
  induction d with
  | zero => intro g s e h1 h2; rw [Nat.add_zero, h1] at h2; cases h2; exact Nat.le_refl _
  | succ d ih =>
    intro g s e h1 h2
    have hlt : g + d < offsets.length := by
      have := (List.getElem?_eq_some_iff.1 h2).1; omega
    have h3 := ih g s _ h1 (List.getElem?_eq_getElem hlt)
    have h4 := (ho (g + d) _ e (List.getElem?_eq_getElem hlt) h2).1
    omega

/-- What sorting the range `[s, e)` in place means. -/
structure RangeSorted {α} (comp : α → α → Bool) (s e : Nat) (data out : List α) : Prop where
  len : out.length = data.length
  sorted : CompSorted comp (seg out s e)
  perm : (seg out s e).Perm (seg data s e)
  outside : ∀ i : Nat, i < s ∨ e ≤ i → out[i]? = data[i]?

/-- `sortRange` sorts any non empty range. -/
def SortsRanges {α} (comp : α → α → Bool) (sortRange : Nat → Nat → List α → Option (List α)) : Prop :=
  ∀ (data : List α) (s e : Nat), s < e → e ≤ data.length → ∃ out, sortRange s e data = some out ∧ RangeSorted comp s e data out

theorem ptrInsertSort_ranges {α} {comp : α → α → Bool} (hw : StrictWeak comp) : SortsRanges comp (ptrInsertSort comp) := by
  intro data s e h1 h2
  obtain ⟨out, a, b, c, d, f⟩ := ptrInsertSort_spec comp hw data s e h1 h2
  exact ⟨out, a, b, c, d, f⟩

/-- What the C++ standard requires of `std::sort`. -/
def StdSort {α} (comp : α → α → Bool) (srt : List α → List α) : Prop := ∀ l, (srt l).Perm l ∧ CompSorted comp (srt l)

theorem stdSortRange_ranges {α} {comp : α → α → Bool} {srt : List α → List α} (h : StdSort comp srt) :
    SortsRanges comp (stdSortRange srt) := by
  intro data s e h1 h2
  obtain ⟨p1, p2⟩ := h ((data.drop s).take (e - s))
  have hl := p1.length_eq
  have hlen : ((data.drop s).take (e - s)).length = e - s := by simp; omega
  have hts : (data.take s).length = s := by simp; omega
  have hseg : seg (data.take s ++ srt ((data.drop s).take (e - s)) ++ data.drop e) s e = srt ((data.drop s).take (e - s)) := by
    unfold seg
    rw [List.append_assoc, List.drop_append_of_le_length (by omega), List.drop_of_length_le (by omega), List.nil_append,
      List.take_append_of_le_length (by omega), List.take_of_length_le (by omega)]
  refine ⟨_, by unfold stdSortRange; rw [if_pos ⟨by omega, h2⟩], ?_, ?_, ?_, ?_⟩
  · simp only [List.length_append, hts, List.length_drop]; omega
  · rw [hseg]; exact p2
  · rw [hseg]; exact p1
  · intro i hi
    rcases hi with hi | hi
    · rw [List.append_assoc, List.getElem?_append_left (by omega), List.getElem?_take, if_pos hi]
    · rw [List.getElem?_append_right (by simp only [List.length_append, hts]; omega), List.getElem?_drop]
      congr 1
      simp only [List.length_append, hts]; omega

theorem segSort_fold {α} (comp : α → α → Bool) (rs : Nat → Nat → List α → Option (List α)) (hrs : SortsRanges comp rs) (offsets : List Nat) :
    ∀ (order : List Nat) (buf : List α), OffsetsOk offsets buf.length → order.Nodup →
      (∀ g ∈ order, g + 1 < offsets.length) →
      ∃ out, order.foldlM (fun b gid => segSortItem rs offsets gid b) buf = some out ∧ out.length = buf.length ∧
        (∀ (g s e : Nat), g ∈ order → offsets[g]? = some s → offsets[g + 1]? = some e →
          CompSorted comp (seg out s e) ∧ (seg out s e).Perm (seg buf s e)) ∧
        (∀ i : Nat, (∀ (g s e : Nat), g ∈ order → offsets[g]? = some s → offsets[g + 1]? = some e → ¬ (s ≤ i ∧ i < e)) →
          out[i]? = buf[i]?) := by
  intro order
  induction order with
  | nil => intro buf _ _ _; exact ⟨buf, rfl, rfl, by simp, fun _ _ => rfl⟩
  | cons g order ih =>
    intro buf ho hn hb
    have hg := hb g List.mem_cons_self
    have e1 : offsets[g]? = some (offsets[g]'(by omega)) := List.getElem?_eq_getElem (by omega)
    have e2 : offsets[g + 1]? = some (offsets[g + 1]'hg) := List.getElem?_eq_getElem hg
    obtain ⟨hse, hen⟩ := ho g _ _ e1 e2
    generalize offsets[g]'(by omega) = s at e1 hse
    generalize offsets[g + 1]'hg = e at e2 hse hen
    have hstep : ∃ b1, segSortItem rs offsets g buf = some b1 ∧ b1.length = buf.length ∧ CompSorted comp (seg b1 s e) ∧
      (seg b1 s e).Perm (seg buf s e) ∧ ∀ i : Nat, i < s ∨ e ≤ i → b1[i]? = buf[i]? := by
      unfold segSortItem
      rw [e1, e2]
      simp only [Option.bind_eq_bind, Option.bind_some]
      by_cases hc : s = e
      · rw [if_pos hc]
        subst hc
        exact ⟨buf, rfl, rfl, by simp [CompSorted, seg], List.Perm.refl _, fun _ _ => rfl⟩
      · rw [if_neg hc]
        obtain ⟨out, h1, h2⟩ := hrs buf s e (by omega) hen
        exact ⟨out, h1, h2.len, h2.sorted, h2.perm, h2.outside⟩
    obtain ⟨b1, q1, q2, q3, q4, q5⟩ := hstep
    rw [List.nodup_cons] at hn
    obtain ⟨out, p1, p2, p3, p4⟩ := ih b1 (by rw [q2]; exact ho) hn.2 (fun x hx => hb x (List.mem_cons_of_mem _ hx))
    -- other segments do not meet segment g
    have hdis : ∀ (g' s' e' : Nat), g' ≠ g → offsets[g']? = some s' → offsets[g' + 1]? = some e' → e' ≤ s ∨ e ≤ s' := by
      intro g' s' e' hne h1 h2
      rcases Nat.lt_or_gt_of_ne hne with hlt | hgt
      · left
        obtain ⟨d, hd⟩ := Nat.exists_eq_add_of_le (show g' + 1 ≤ g by omega)
        rw [hd] at e1
        exact offsets_mono offsets _ ho d (g' + 1) e' s h2 e1
      · right
        obtain ⟨d, hd⟩ := Nat.exists_eq_add_of_le (show g + 1 ≤ g' by omega)
        rw [hd] at h1
        exact offsets_mono offsets _ ho d (g + 1) e s' e2 h1
    refine ⟨out, ?_, by omega, ?_, ?_⟩
    · rw [List.foldlM_cons, q1]; exact p1
    · intro g' s' e' hm h1 h2
      by_cases hgg : g' = g
      · subst hgg
        rw [e1] at h1; rw [e2] at h2; cases h1; cases h2
        have : seg out s e = seg b1 s e := by
          apply seg_congr
          intro i hi1 hi2
          apply p4
          intro g' s' e' hm' h1' h2' hc
          have hne : g' ≠ g' → False := fun h => h rfl
          have hd := hdis g' s' e' (by rintro rfl; exact hn.1 hm') h1' h2'
          omega
        rw [this]; exact ⟨q3, q4⟩
      · have hm' : g' ∈ order := by
          rcases List.mem_cons.1 hm with h | h
          · exact absurd h hgg
          · exact h
        have hd := hdis g' s' e' hgg h1 h2
        obtain ⟨a1, a2⟩ := p3 g' s' e' hm' h1 h2
        refine ⟨a1, ?_⟩
        have : seg buf s' e' = seg b1 s' e' := by
          apply seg_congr
          intro i hi1 hi2
          rw [q5 i (by omega)]
        rw [this]; exact a2
    · intro i hi
      rw [p4 i (fun g' s' e' hm h1 h2 => hi g' s' e' (List.mem_cons_of_mem _ hm) h1 h2)]
      apply q5
      have := hi g s e List.mem_cons_self e1 e2
      omega

theorem segmentedSortWith_ok {α} (comp : α → α → Bool) (rs : Nat → Nat → List α → Option (List α)) (hrs : SortsRanges comp rs) (offsets : List Nat) (order : List Nat)
    (buf : List α) (ho : OffsetsOk offsets buf.length) (hne : offsets ≠ [])
    (hord : order.Perm (List.range (offsets.length - 1))) :
    ∃ out, segmentedSortWith rs offsets order buf = some (.ok out) ∧ out.length = buf.length ∧
      (∀ (g s e : Nat), offsets[g]? = some s → offsets[g + 1]? = some e →
        CompSorted comp (seg out s e) ∧ (seg out s e).Perm (seg buf s e)) ∧
      (∀ i : Nat, (∀ (g s e : Nat), offsets[g]? = some s → offsets[g + 1]? = some e → ¬ (s ≤ i ∧ i < e)) →
        out[i]? = buf[i]?) := by
  unfold segmentedSortWith
  have hol : offsets.length ≠ 0 := fun h => hne (List.length_eq_zero_iff.1 h)
  by_cases hb : buf.length = 0
  · have : buf = [] := List.length_eq_zero_iff.1 hb
    subst this
    rw [if_pos hb]
    exact ⟨[], rfl, rfl, fun g s e _ _ => ⟨by simp [CompSorted, seg], List.Perm.refl _⟩, fun _ _ => rfl⟩
  · rw [if_neg hb, if_neg hol]
    have hmem : ∀ g, g ∈ order ↔ g + 1 < offsets.length := by
      intro g; rw [hord.mem_iff, List.mem_range]; omega
    obtain ⟨out, h1, h2, h3, h4⟩ := segSort_fold comp rs hrs offsets order buf ho (hord.nodup_iff.2 List.nodup_range)
      (fun g hg => (hmem g).1 hg)
    refine ⟨out, by rw [h1]; rfl, h2, ?_, ?_⟩
    · intro g s e hs he
      exact h3 g s e ((hmem g).2 (List.getElem?_eq_some_iff.1 he).1) hs he
    · intro i hi
      exact h4 i (fun g s e _ hs he => hi g s e hs he)

/-- C11: the segmented sort, its work items running in any order, sorts every segment `[offsets[g], offsets[g+1])` in place
and leaves every position outside all segments untouched. -/
theorem C11_segmented_sort {α} (comp : α → α → Bool) (hw : StrictWeak comp) (offsets : List Nat) (order : List Nat)
    (buf : List α) (ho : OffsetsOk offsets buf.length) (hne : offsets ≠ [])
    (hord : order.Perm (List.range (offsets.length - 1))) :
    ∃ out, segmentedSort comp offsets order buf = some (.ok out) ∧ out.length = buf.length ∧
      (∀ (g s e : Nat), offsets[g]? = some s → offsets[g + 1]? = some e →
        CompSorted comp (seg out s e) ∧ (seg out s e).Perm (seg buf s e)) ∧
      (∀ i : Nat, (∀ (g s e : Nat), offsets[g]? = some s → offsets[g + 1]? = some e → ¬ (s ≤ i ∧ i < e)) →
        out[i]? = buf[i]?) :=
  segmentedSortWith_ok comp _ (ptrInsertSort_ranges hw) offsets order buf ho hne hord

/-- C11: the default implementation (`std::sort` on each segment), its iterations running in any order, sorts every segment `[offsets[g], offsets[g+1])` in place
and leaves every position outside all segments untouched. -/
theorem C11_segmented_std_sort {α} (comp : α → α → Bool) (srt : List α → List α) (hsrt : StdSort comp srt) (offsets : List Nat) (order : List Nat)
    (buf : List α) (ho : OffsetsOk offsets buf.length) (hne : offsets ≠ [])
    (hord : order.Perm (List.range (offsets.length - 1))) :
    ∃ out, segmentedSortStd srt offsets order buf = some (.ok out) ∧ out.length = buf.length ∧
      (∀ (g s e : Nat), offsets[g]? = some s → offsets[g + 1]? = some e →
        CompSorted comp (seg out s e) ∧ (seg out s e).Perm (seg buf s e)) ∧
      (∀ i : Nat, (∀ (g s e : Nat), offsets[g]? = some s → offsets[g + 1]? = some e → ¬ (s ≤ i ∧ i < e)) →
        out[i]? = buf[i]?) :=
  segmentedSortWith_ok comp _ (stdSortRange_ranges hsrt) offsets order buf ho hne hord

/-- C11: an empty offsets buffer is rejected (unless there is nothing to sort). -/
theorem C11_empty_offsets {α} (comp : α → α → Bool) (order : List Nat) (buf : List α) :
    segmentedSort comp [] order buf = some (if buf = [] then .ok buf else .throws) := by
  unfold segmentedSort segmentedSortWith
  cases buf <;> simp

/-- `[a, b)` is a segment of the flagged array of size `n`: no flag inside, a flag (or the array end) on both sides. -/
structure IsSegment (bnd : List Bool) (n a b : Nat) : Prop where
  le : a ≤ b
  bn : b ≤ n
  left : a = 0 ∨ bnd[a - 1]? = some true
  right : b = n ∨ b = 0 ∨ bnd[b - 1]? = some true
  inner : ∀ i : Nat, a ≤ i → i + 1 < b → bnd[i]? = some false

/-- C12: `odd_even_transpose_sort_segment_flags<T, n>` sorts every segment of the array in place, for every array size and
every flag pattern, without any out of bounds access. -/
theorem C12_odd_even_sorts {α} (comp : α → α → Bool) (hw : StrictWeak comp) (bnd : List Bool) (keys : List α)
    (hb : keys.length ≤ bnd.length + 1) :
    ∃ out, oetSort comp bnd keys.length keys = some out ∧ out.length = keys.length ∧
      ∀ a b, IsSegment bnd keys.length a b → CompSorted comp (seg out a b) ∧ (seg out a b).Perm (seg keys a b) := by
  obtain ⟨out, h1, h2, h3⟩ := oet_main comp hw bnd keys hb
  exact ⟨out, h1, h2, fun a b hs => h3 a b hs.le hs.bn hs.left hs.right hs.inner⟩

/-- C12: with no flag set the whole array is sorted. -/
theorem C12_no_flags {α} (comp : α → α → Bool) (hw : StrictWeak comp) (keys : List α) :
    ∃ out, oetSort comp (List.replicate (keys.length - 1) false) keys.length keys = some out ∧ CompSorted comp out ∧
      out.Perm keys := by
  obtain ⟨out, h1, h2, h3⟩ := C12_odd_even_sorts comp hw (List.replicate (keys.length - 1) false) keys (by simp; omega)
  have := h3 0 keys.length ⟨Nat.zero_le _, Nat.le_refl _, Or.inl rfl, Or.inl rfl, fun i _ hi => by
    rw [List.getElem?_replicate, if_pos (by omega)]⟩
  unfold seg at this
  simp only [List.drop_zero, Nat.sub_zero] at this
  rw [← h2, List.take_length, h2, List.take_length] at this
  exact ⟨out, h1, this⟩

/-- The contract of `std::sort` can be met. -/
theorem stdSort_exists {α} {comp : α → α → Bool} (hw : StrictWeak comp) : ∃ srt, StdSort comp srt := by
  refine ⟨fun l => (ptrInsertSort comp 0 l.length l).getD l, ?_⟩
  intro l
  obtain ⟨out, h1, h2, h3, h4, _⟩ := C11_insert_sort comp hw l 0 l.length (Nat.zero_le _) (Nat.le_refl _)
  have e1 : seg out 0 l.length = out := by unfold seg; simp [← h2]
  have e2 : seg l 0 l.length = l := by unfold seg; simp
  rw [e1] at h3 h4
  rw [e2] at h4
  show ((ptrInsertSort comp 0 l.length l).getD l).Perm l ∧ CompSorted comp ((ptrInsertSort comp 0 l.length l).getD l)
  rw [h1]
  exact ⟨h4, h3⟩

/-- The comparator used for interaction pairs is a strict weak order. -/
theorem pair2Lt_weak : StrictWeak pair2Lt := by
  constructor
  · intro a b h
    unfold pair2Lt at *
    split at h <;> split <;> simp only [decide_eq_true_eq, decide_eq_false_iff_not] at * <;> omega
  · intro a b c h1 h2
    unfold pair2Lt at *
    split at h1 <;> split at h2 <;> split <;> simp only [decide_eq_false_iff_not] at * <;> omega

theorem natLt_strictWeak : StrictWeak (fun a b : Nat => decide (a < b)) :=
  ⟨fun a b h => by simp at *; omega, fun a b c h1 h2 => by simp at *; omega⟩

example : OffsetsOk [1, 3, 3, 6] 7 ∧ segmentedSort (fun a b : Nat => decide (a < b)) [1, 3, 3, 6] [2, 0, 1] [9, 5, 4, 3, 7, 1, 0]
    = some (.ok [9, 4, 5, 1, 3, 7, 0]) := by
  constructor
  · intro g s e h1 h2
    match g, h1, h2 with
    | 0, h1, h2 => simp at h1 h2; omega
    | 1, h1, h2 => simp at h1 h2; omega
    | 2, h1, h2 => simp at h1 h2; omega
    | n + 3, h1, h2 => simp at h2
  · decide

example : oetSort (fun a b : Nat => decide (a < b)) [false, true, false, false] 5 [4, 3, 9, 7, 1] = some [3, 4, 1, 7, 9] ∧
    IsSegment [false, true, false, false] 5 2 5 := by
  constructor
  · simp [oetSort, oetSortT, oetPass, oetCmp, wr]
  · refine ⟨by decide, by decide, Or.inr rfl, Or.inl rfl, ?_⟩
    intro i h1 h2
    have : i = 2 ∨ i = 3 := by omega
    rcases this with rfl | rfl <;> rfl

end Shamrock
