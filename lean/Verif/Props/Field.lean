import Verif.Proof.Field
import Mathlib.Data.List.Dedup
import Mathlib.Data.List.Nodup
/-! C39: edits of patch data fields; C38: splitting patch data. -/
namespace Shamrock

/-- Launch orders: for each number of elementary writes, a permutation of them. -/
def GoodOrder (order : Nat → List Nat) : Prop := ∀ n, (order n).Perm (List.range n)

theorem goodOrder_id : GoodOrder List.range := fun _ => List.Perm.refl _

/-- C39: `append_subset_to` appends to the destination exactly the listed objects, whole and in the listed order. -/
theorem C39_append_subset {α} (garbage : Nat → α) (order : Nat → List Nat) (ho : GoodOrder order) (f pf : PField α)
    (hf : f.WF) (hpf : pf.WF) (hn : pf.nvar = f.nvar) (idxs : List Nat) (hi : ∀ i ∈ idxs, i < f.count)
    (hsz : (pf.count + idxs.length) * f.nvar < 2 ^ 32) :
    ∃ pf', f.appendSubset garbage order idxs idxs.length pf = .ok pf' ∧ pf'.nvar = pf.nvar ∧ pf'.WF ∧
      pf'.objs = pf.objs ++ idxs.map f.obj := by
  have hchunk : ∀ c ∈ pf.objs ++ idxs.map f.obj, c.length = pf.nvar := by
    intro c hc
    rcases List.mem_append.1 hc with h | h
    · exact objs_chunk hpf c h
    · obtain ⟨k, hk, rfl⟩ := List.mem_map.1 h
      rw [hn]; exact obj_length hf k (hi k hk)
  have hkey : ∀ b, b = pf.buf ++ (idxs.map f.obj).flatten → (PField.mk pf.nvar b).WF ∧
      (PField.mk pf.nvar b).objs = pf.objs ++ idxs.map f.obj := by
    intro b hb
    have e : b = (pf.objs ++ idxs.map f.obj).flatten := by rw [List.flatten_append, ← buf_eq_flatten hpf, hb]
    rw [e]
    refine ⟨wf_of_flatten _ hpf.pos _ hchunk ?_, objs_of_flatten _ hpf.pos _ hchunk⟩
    rw [List.length_append, objs_length, List.length_map, hn]; exact hsz
  unfold PField.appendSubset
  rw [if_neg (by simpa using hn), if_neg (by simp)]
  by_cases h0 : 0 < idxs.length
  · rw [if_pos h0, valCnt_ok hpf]
    unfold PField.expand PField.resize
    rw [objCnt_ok hpf]
    have hm1 : (pf.count + idxs.length) * pf.nvar < 2 ^ 32 := by rw [hn]; exact hsz
    have hm2 : pf.count + idxs.length < 2 ^ 32 := by
      have h1 := Nat.le_mul_of_pos_right (pf.count + idxs.length) hpf.pos
      omega
    simp only [Res.ok_bind, Nat.mod_eq_of_lt hm2]
    unfold narrow32
    rw [if_pos hm1]
    simp only [Res.ok_bind, Res.pure_eq]
    have hlen := WF.len hpf
    have hbl : (bufResize garbage ((pf.count + idxs.length) * pf.nvar) pf.buf).length = pf.buf.length + idxs.length * f.nvar := by
      unfold bufResize
      have e : (pf.count + idxs.length) * pf.nvar = pf.count * pf.nvar + idxs.length * pf.nvar := by ring
      rw [List.length_append, List.length_take, List.length_map, List.length_range, ← hn]
      omega
    rw [subsetLaunch_spec f hf idxs hi pf.buf.length _ (ho _) _ hbl]
    simp only [Res.ofOpt_some, Res.ok_bind]
    have htk : (bufResize garbage ((pf.count + idxs.length) * pf.nvar) pf.buf).take pf.buf.length = pf.buf := by
      unfold bufResize
      have e : (pf.count + idxs.length) * pf.nvar = pf.count * pf.nvar + idxs.length * pf.nvar := by ring
      rw [List.take_of_length_le (show pf.buf.length ≤ _ by omega), List.take_left]
    rw [htk]
    obtain ⟨w, o⟩ := hkey _ rfl
    exact ⟨_, rfl, rfl, w, o⟩
  · have : idxs = [] := List.length_eq_zero_iff.1 (by omega)
    subst this
    rw [if_neg h0]
    exact ⟨pf, rfl, rfl, hpf, by simp⟩

/-- C39: `append_subset_to` rejects a destination with another number of values per object, and a wrong count. -/
theorem C39_append_rejects {α} (garbage : Nat → α) (order : Nat → List Nat) (f pf : PField α) (idxs : List Nat) (sz : Nat)
    (h : pf.nvar ≠ f.nvar ∨ sz ≠ idxs.length) : f.appendSubset garbage order idxs sz pf = .throws := by
  unfold PField.appendSubset
  rcases h with h | h
  · rw [if_pos h]
  · split
    · rfl
    · simp [h]

/-- C39: `insert` appends all objects of the other field. -/
theorem C39_insert {α} (f g : PField α) (hf : f.WF) (hg : g.WF) (hn : g.nvar = f.nvar)
    (hsz : (f.count + g.count) * f.nvar < 2 ^ 32) : (f.insert g).WF ∧ (f.insert g).objs = f.objs ++ g.objs := by
  have hchunk : ∀ c ∈ f.objs ++ g.objs, c.length = f.nvar := by
    intro c hc
    rcases List.mem_append.1 hc with h | h
    · exact objs_chunk hf c h
    · rw [← hn]; exact objs_chunk hg c h
  unfold PField.insert
  rw [show f.buf ++ g.buf = (f.objs ++ g.objs).flatten by rw [List.flatten_append, ← buf_eq_flatten hf, ← buf_eq_flatten hg]]
  refine ⟨wf_of_flatten _ hf.pos _ hchunk ?_, objs_of_flatten _ hf.pos _ hchunk⟩
  rw [List.length_append, objs_length, objs_length]; exact hsz

/-- C39: `index_remap_resize` replaces the content by the listed objects (nothing happens to an empty field). -/
theorem C39_index_remap_resize {α} (garbage : Nat → α) (order : Nat → List Nat) (ho : GoodOrder order) (f : PField α)
    (hf : f.WF) (map : List Nat) (hi : ∀ i ∈ map, i < f.count) (hsz : map.length * f.nvar < 2 ^ 32) :
    ∃ f', f.indexRemapResize garbage order map map.length = .ok f' ∧ f'.nvar = f.nvar ∧ f'.WF ∧ f'.objs = map.map f.obj := by
  unfold PField.indexRemapResize
  by_cases h0 : f.buf.length = 0
  · rw [if_pos h0]
    have hc : f.count = 0 := by unfold PField.count; rw [h0, Nat.zero_div]
    have hm : map = [] := by
      cases map with
      | nil => rfl
      | cons a r => have := hi a List.mem_cons_self; omega
    subst hm
    exact ⟨f, rfl, rfl, hf, by simp [PField.objs, hc]⟩
  · rw [if_neg h0, subsetLaunch_spec f hf map hi 0 _ (ho _) _ (by simp)]
    simp only [Res.ofOpt_some, Res.ok_bind, Res.pure_eq, List.take_zero, List.nil_append]
    have hchunk : ∀ c ∈ map.map f.obj, c.length = f.nvar := by
      intro c hc
      obtain ⟨k, hk, rfl⟩ := List.mem_map.1 hc
      exact obj_length hf k (hi k hk)
    exact ⟨_, rfl, rfl, wf_of_flatten _ hf.pos _ hchunk (by rw [List.length_map]; exact hsz), objs_of_flatten _ hf.pos _ hchunk⟩

/-- C39: `index_remap` with a permutation of the indices permutes the objects; a wrong length is rejected. -/
theorem C39_index_remap {α} (garbage : Nat → α) (order : Nat → List Nat) (ho : GoodOrder order) (f : PField α) (hf : f.WF)
    (map : List Nat) (hp : map.Perm (List.range f.count)) :
    ∃ f', f.indexRemap garbage order map map.length = .ok f' ∧ f'.WF ∧ f'.objs = map.map f.obj ∧ f'.objs.Perm f.objs := by
  have hl : map.length = f.count := by rw [hp.length_eq, List.length_range]
  unfold PField.indexRemap
  rw [objCnt_ok hf]
  simp only [Res.ok_bind]
  rw [if_neg (by simpa using hl)]
  obtain ⟨f', h1, h2, h3, h4⟩ := C39_index_remap_resize garbage order ho f hf map
    (fun i hi => by rw [hp.mem_iff, List.mem_range] at hi; exact hi) (by rw [hl, ← WF.len hf]; exact hf.lt)
  exact ⟨f', h1, h3, h4, by rw [h4]; exact hp.map _⟩

theorem C39_index_remap_rejects {α} (garbage : Nat → α) (order : Nat → List Nat) (f : PField α) (hf : f.WF) (map : List Nat)
    (len : Nat) (h : len ≠ f.count) : f.indexRemap garbage order map len = .throws := by
  unfold PField.indexRemap
  rw [objCnt_ok hf]
  simp only [Res.ok_bind]
  rw [if_pos h]

theorem flagWrite_fold (ids : List Nat) (n : Nat) (hi : ∀ i ∈ ids, i < n) : ∀ (order : List Nat) (flags : List W32),
    flags.length = n → (∀ w ∈ order, w < ids.length) →
    ∃ out, order.foldlM (flagWrite ids) flags = some out ∧ out.length = n ∧
      ∀ i : Nat, out[i]? = if ∃ w ∈ order, ids[w]? = some i then some 0 else flags[i]? := by
  intro order
  induction order with
  | nil => intro flags hl _; exact ⟨flags, rfl, hl, fun i => by simp⟩
  | cons w r ih =>
    intro flags hl hb
    have hw := hb w List.mem_cons_self
    have hid := hi _ (List.getElem_mem hw)
    obtain ⟨out, h1, h2, h3⟩ := ih (flags.set (ids[w]'hw) 0) (by simpa using hl) (fun x hx => hb x (List.mem_cons_of_mem _ hx))
    refine ⟨out, ?_, h2, ?_⟩
    · rw [List.foldlM_cons]
      unfold flagWrite
      rw [List.getElem?_eq_getElem hw]
      simp only [Option.bind_eq_bind, Option.bind_some]
      rw [wr_some _ _ _ (by omega)]
      exact h1
    · intro i
      rw [h3 i]
      by_cases hc : ∃ w' ∈ r, ids[w']? = some i
      · rw [if_pos hc, if_pos]
        obtain ⟨w', a, b⟩ := hc
        exact ⟨w', List.mem_cons_of_mem _ a, b⟩
      · rw [if_neg hc]
        by_cases he : ids[w]'hw = i
        · rw [if_pos ⟨w, List.mem_cons_self, by rw [List.getElem?_eq_getElem hw, he]⟩, ← he, List.getElem?_set_self (by omega)]
        · rw [if_neg, List.getElem?_set_ne he]
          rintro ⟨w', a, b⟩
          rcases List.mem_cons.1 a with rfl | a
          · rw [List.getElem?_eq_getElem hw] at b; exact he (Option.some.inj b)
          · exact hc ⟨w', a, b⟩

/-- Indices kept by a removal. -/
def keptIdx (n : Nat) (ids : List Nat) : List Nat := (List.range n).filter (fun i => decide (i ∉ ids))

theorem keptIdx_length (n : Nat) (ids : List Nat) (hi : ∀ i ∈ ids, i < n) : (keptIdx n ids).length + ids.dedup.length = n := by
  have h1 : ((List.range n).filter (fun i => decide (i ∈ ids))).Perm ids.dedup := by
    apply (List.perm_ext_iff_of_nodup (List.Nodup.filter _ List.nodup_range) (List.nodup_dedup _)).2
    intro a
    rw [List.mem_filter, List.mem_range, List.mem_dedup, decide_eq_true_eq]
    exact ⟨fun h => h.2, fun h => ⟨hi a h, h⟩⟩
  have h2 := List.length_eq_length_filter_add (l := List.range n) (fun i => decide (i ∈ ids))
  rw [h1.length_eq, List.length_range] at h2
  unfold keptIdx
  have e : (fun i => decide (i ∉ ids)) = (fun i => !decide (i ∈ ids)) := by funext i; simp
  rw [e]; omega

/-- The keep list computed by `remove_ids`. -/
theorem remove_keep (ids : List Nat) (n : Nat) (hn : n < 2 ^ 32) (hi : ∀ i ∈ ids, i < n) (garbageIdx : Nat → Nat)
    (order : Nat → List Nat) (ho : GoodOrder order) :
    ∃ flags, (order ids.length).foldlM (flagWrite ids) (List.replicate n 1) = some flags ∧
      streamCompact flags garbageIdx (order n) = some (keptIdx n ids) := by
  obtain ⟨flags, h1, h2, h3⟩ := flagWrite_fold ids n hi (order ids.length) (List.replicate n 1) (by simp)
    (fun w hw => by rw [(ho _).mem_iff, List.mem_range] at hw; exact hw)
  refine ⟨flags, h1, ?_⟩
  have hex : ∀ i, (∃ w ∈ order ids.length, ids[w]? = some i) ↔ i ∈ ids := by
    intro i
    constructor
    · rintro ⟨w, _, hw⟩; exact List.mem_of_getElem? hw
    · intro h
      obtain ⟨w, hw⟩ := List.getElem?_of_mem h
      exact ⟨w, by rw [(ho _).mem_iff, List.mem_range]; exact (List.getElem?_eq_some_iff.1 hw).1, hw⟩
  have hfl : ∀ i < n, flags[i]? = some (if i ∈ ids then 0 else 1) := by
    intro i hin
    rw [h3 i]
    by_cases hc : i ∈ ids
    · rw [if_pos ((hex i).2 hc), if_pos hc]
    · rw [if_neg (fun h => hc ((hex i).1 h)), if_neg hc, List.getElem?_replicate, if_pos hin]
  have hb : Binary flags := by
    intro x hx
    obtain ⟨i, hi⟩ := List.getElem?_of_mem hx
    have hin : i < n := by rw [← h2]; exact (List.getElem?_eq_some_iff.1 hi).1
    rw [hfl i hin] at hi
    cases hi
    split <;> simp
  rw [C15_stream_compact flags hb (by omega) garbageIdx (order n) (by rw [h2]; exact ho n), h2]
  congr 1
  unfold flaggedIdx keptIdx
  apply List.filter_congr
  intro i hin
  rw [hfl i (List.mem_range.1 hin)]
  by_cases hc : i ∈ ids <;> simp [hc]

/-- C39: `remove_ids` with distinct existing ids keeps exactly the other objects, in order. -/
theorem C39_remove_ids {α} (garbage : Nat → α) (garbageIdx : Nat → Nat) (order : Nat → List Nat) (ho : GoodOrder order)
    (f : PField α) (hf : f.WF) (ids : List Nat) (hi : ∀ i ∈ ids, i < f.count) (hn : ids.Nodup) :
    ∃ f', f.removeIds garbage garbageIdx order ids ids.length = .ok f' ∧ f'.nvar = f.nvar ∧ f'.WF ∧
      f'.objs = ((List.range f.count).filter (fun i => decide (i ∉ ids))).map f.obj := by
  have hc32 : f.count < 2 ^ 32 := Nat.lt_of_le_of_lt (Nat.div_le_self _ _) hf.lt
  have hkl := keptIdx_length f.count ids hi
  rw [hn.dedup] at hkl
  unfold PField.removeIds
  rw [objCnt_ok hf]
  simp only [Res.ok_bind]
  rw [if_neg (by omega)]
  by_cases h0 : ids.length = 0
  · rw [if_pos h0]
    have : ids = [] := List.length_eq_zero_iff.1 h0
    subst this
    exact ⟨f, rfl, rfl, hf, by simp [PField.objs]⟩
  · rw [if_neg h0]
    obtain ⟨flags, k1, k2⟩ := remove_keep ids f.count hc32 hi garbageIdx order ho
    rw [k1]
    simp only [Res.ofOpt_some, Res.ok_bind]
    rw [k2]
    simp only [Res.ofOpt_some, Res.ok_bind]
    rw [if_neg (by simp; omega), show f.count - ids.length = (keptIdx f.count ids).length by omega]
    apply C39_index_remap_resize garbage order ho f hf
    · intro i h
      exact List.mem_range.1 (List.mem_of_mem_filter h)
    · have h1 : (keptIdx f.count ids).length * f.nvar ≤ f.count * f.nvar := Nat.mul_le_mul_right _ (by omega)
      rw [← WF.len hf] at h1
      have := hf.lt
      omega

/-- C39: `remove_ids` rejects duplicated ids. -/
theorem C39_remove_ids_duplicates {α} (garbage : Nat → α) (garbageIdx : Nat → Nat) (order : Nat → List Nat)
    (ho : GoodOrder order) (f : PField α) (hf : f.WF) (ids : List Nat) (hi : ∀ i ∈ ids, i < f.count) (hn : ¬ ids.Nodup) :
    f.removeIds garbage garbageIdx order ids ids.length = .throws := by
  have hc32 : f.count < 2 ^ 32 := Nat.lt_of_le_of_lt (Nat.div_le_self _ _) hf.lt
  have hkl := keptIdx_length f.count ids hi
  have hlt : ids.dedup.length < ids.length := by
    rcases Nat.lt_or_eq_of_le (List.dedup_sublist ids).length_le with h | h
    · exact h
    · exact absurd (List.dedup_eq_self.1 ((List.dedup_sublist ids).eq_of_length h)) hn
  unfold PField.removeIds
  rw [objCnt_ok hf]
  simp only [Res.ok_bind]
  by_cases hle : f.count < ids.length
  · rw [if_pos hle]
  · rw [if_neg hle, if_neg (by omega)]
    obtain ⟨flags, k1, k2⟩ := remove_keep ids f.count hc32 hi garbageIdx order ho
    rw [k1]
    simp only [Res.ofOpt_some, Res.ok_bind]
    rw [k2]
    simp only [Res.ofOpt_some, Res.ok_bind]
    rw [if_pos (by omega)]

/-- C39: `extract_elements` moves exactly the listed (distinct) objects: they are appended to the destination, the others stay
in order, and together nothing is lost or duplicated. -/
theorem C39_extract_elements {α} (garbage : Nat → α) (garbageIdx : Nat → Nat) (order : Nat → List Nat) (ho : GoodOrder order)
    (f tgt : PField α) (hf : f.WF) (ht : tgt.WF) (hnv : tgt.nvar = f.nvar) (ids : List Nat) (hi : ∀ i ∈ ids, i < f.count)
    (hn : ids.Nodup) (hsz : (tgt.count + ids.length) * f.nvar < 2 ^ 32) :
    ∃ f' tgt', f.extractElements garbage garbageIdx order ids tgt = .ok (f', tgt') ∧ f'.WF ∧ tgt'.WF ∧
      tgt'.objs = tgt.objs ++ ids.map f.obj ∧
      f'.objs = ((List.range f.count).filter (fun i => decide (i ∉ ids))).map f.obj ∧
      (f'.objs ++ tgt'.objs).Perm (f.objs ++ tgt.objs) := by
  obtain ⟨tgt', a1, a2, a3, a4⟩ := C39_append_subset garbage order ho f tgt hf ht hnv ids hi hsz
  obtain ⟨f', b1, b2, b3, b4⟩ := C39_remove_ids garbage garbageIdx order ho f hf ids hi hn
  refine ⟨f', tgt', ?_, b3, a3, a4, b4, ?_⟩
  · unfold PField.extractElements
    rw [a1]; simp only [Res.ok_bind]; rw [b1]; rfl
  · rw [a4, b4]
    have hp : ((List.range f.count).filter (fun i => decide (i ∉ ids)) ++ ids).Perm (List.range f.count) := by
      apply (List.perm_ext_iff_of_nodup ?_ List.nodup_range).2
      · intro a
        rw [List.mem_append, List.mem_filter, decide_eq_true_eq]
        constructor
        · rintro (h | h)
          · exact h.1
          · exact List.mem_range.2 (hi a h)
        · intro h
          by_cases hc : a ∈ ids
          · exact Or.inr hc
          · exact Or.inl ⟨h, hc⟩
      · rw [List.nodup_append]
        refine ⟨List.Nodup.filter _ List.nodup_range, hn, ?_⟩
        intro a ha b hb hab
        rw [List.mem_filter, decide_eq_true_eq] at ha
        exact ha.2 (hab ▸ hb)
    have h1 := hp.map f.obj
    rw [List.map_append] at h1
    refine List.Perm.trans ?_ (List.Perm.append_right tgt.objs h1)
    rw [List.append_assoc]
    exact List.Perm.append_left _ List.perm_append_comm

/-- C39: `permut_vars` with a permutation of the components moves component `v` of every object to `permut[v]`. -/
theorem C39_permut_vars {α} (order : Nat → List Nat) (ho : GoodOrder order) (f : PField α) (hf : f.WF) (permut : List Nat)
    (hp : permut.Perm (List.range f.nvar)) :
    ∃ f', f.permutVars order permut = .ok f' ∧ f'.nvar = f.nvar ∧ f'.WF ∧ f'.count = f.count ∧
      ∀ k < f.count, ∀ (v nv : Nat), permut[v]? = some nv → (f'.obj k)[nv]? = (f.obj k)[v]? := by
  have hl : permut.length = f.nvar := by rw [hp.length_eq, List.length_range]
  have hpos := hf.pos
  have hplt : ∀ (v nv : Nat), permut[v]? = some nv → nv < f.nvar := by
    intro v nv h
    have := List.mem_of_getElem? h
    rw [hp.mem_iff, List.mem_range] at this; exact this
  have hnd : permut.Nodup := hp.nodup_iff.2 List.nodup_range
  unfold PField.permutVars
  rw [if_neg (by simpa using hl), valCnt_ok hf]
  simp only [Res.ok_bind]
  rcases Nat.eq_zero_or_pos f.buf.length with h0 | hbp
  · have : order f.buf.length = [] := by
      have := (ho f.buf.length).length_eq
      rw [List.length_range, h0] at this
      rw [h0]; exact List.length_eq_zero_iff.1 this
    rw [this]
    refine ⟨f, rfl, rfl, hf, rfl, ?_⟩
    intro k hk
    unfold PField.count at hk; rw [h0, Nat.zero_div] at hk; omega
  · have hval : ∀ i < f.buf.length, ∃ v nv, permut[i % f.nvar]? = some nv ∧ f.buf[i]? = some v := by
      intro i hi
      have hm := Nat.mod_lt i hpos
      exact ⟨f.buf[i], permut[i % f.nvar]'(by omega), List.getElem?_eq_getElem _, List.getElem?_eq_getElem _⟩
    obtain ⟨v0, _, _, _⟩ := hval 0 hbp
    have hmem : ∀ w ∈ order f.buf.length, w < f.buf.length := fun w hw => by
      rw [(ho _).mem_iff, List.mem_range] at hw; exact hw
    rw [foldlM_congr_mem _ (fun d w => wr d (w / f.nvar * f.nvar + (permut[w % f.nvar]?).getD 0) ((f.buf[w]?).getD v0))
      (order f.buf.length) f.buf (fun w hw d => by
        obtain ⟨v, nv, h1, h2⟩ := hval w (hmem w hw)
        unfold permutWrite
        rw [h1, h2]; rfl)]
    obtain ⟨out, o1, o2, o3, o4⟩ := foldWrites (fun w => w / f.nvar * f.nvar + (permut[w % f.nvar]?).getD 0)
      (fun w => (f.buf[w]?).getD v0) (order f.buf.length) f.buf ((ho _).nodup_iff.2 List.nodup_range)
      (fun w hw => by
        obtain ⟨v, nv, h1, h2⟩ := hval w (hmem w hw)
        have hk : w / f.nvar < f.count := Nat.div_lt_of_lt_mul (by rw [Nat.mul_comm, ← WF.len hf]; exact hmem w hw)
        show w / f.nvar * f.nvar + (permut[w % f.nvar]?).getD 0 < _
        rw [h1]
        exact obj_bound hf _ _ hk (hplt _ _ h1))
      (fun w hw w' hw' he => by
        obtain ⟨v, nv, h1, h2⟩ := hval w (hmem w hw)
        obtain ⟨v', nv', h1', h2'⟩ := hval w' (hmem w' hw')
        have he : w / f.nvar * f.nvar + (permut[w % f.nvar]?).getD 0 = w' / f.nvar * f.nvar + (permut[w' % f.nvar]?).getD 0 := he
        rw [h1, h1'] at he
        simp only [Option.getD_some] at he
        have l1 := hplt _ _ h1
        have l2 := hplt _ _ h1'
        have hnv : nv = nv' := by
          have := congrArg (· % f.nvar) he
          simpa [Nat.mul_add_mod', Nat.mod_eq_of_lt l1, Nat.mod_eq_of_lt l2] using this
        subst hnv
        have hdiv : w / f.nvar = w' / f.nvar := Nat.eq_of_mul_eq_mul_right hpos (by omega)
        have hmod : w % f.nvar = w' % f.nvar := by
          have i1 := (List.getElem?_eq_some_iff.1 h1)
          have i2 := (List.getElem?_eq_some_iff.1 h1')
          exact (List.Nodup.getElem_inj_iff hnd).1 (i1.2.trans i2.2.symm)
        rw [← Nat.div_add_mod w f.nvar, ← Nat.div_add_mod w' f.nvar, hdiv, hmod])
    rw [o1]
    refine ⟨⟨f.nvar, out⟩, rfl, rfl, ⟨hpos, by rw [o2]; exact hf.dvd, by rw [o2]; exact hf.lt⟩, by unfold PField.count; rw [o2], ?_⟩
    intro k hk v nv hv
    have hvl : v < f.nvar := by rw [← hl]; exact (List.getElem?_eq_some_iff.1 hv).1
    have hb := obj_bound hf k v hk hvl
    rw [obj_get f k v hvl, obj_get ⟨f.nvar, out⟩ k nv (hplt _ _ hv)]
    have := o3 (k * f.nvar + v) (by rw [(ho _).mem_iff, List.mem_range]; exact hb)
    have e1 : (k * f.nvar + v) / f.nvar = k := by
      rw [Nat.mul_comm, Nat.mul_add_div hpos, Nat.div_eq_of_lt hvl, Nat.add_zero]
    have e2 : (k * f.nvar + v) % f.nvar = v := by rw [Nat.mul_comm, Nat.mul_add_mod, Nat.mod_eq_of_lt hvl]
    simp only [e1, e2, hv, Option.getD_some] at this
    show out[k * f.nvar + nv]? = _
    rw [this, List.getElem?_eq_getElem hb]; rfl

/-- C39 (defect): `extract_element` on a field with two values per object overwrites the hole with the last *value* twice
instead of the last object: the object (3, 4) is lost and (4, 4) invented. -/
theorem C39_extract_element_defect :
    ∃ f' tgt', (PField.mk 2 [1, 2, 3, 4]).extractElement (fun _ => 0) 0 (PField.mk 2 []) = .ok (f', tgt') ∧
      tgt'.objs = [[1, 2]] ∧ f'.objs = [[4, 4]] ∧ ¬ (f'.objs ++ tgt'.objs).Perm (PField.mk 2 [1, 2, 3, 4]).objs := by
  refine ⟨⟨2, [4, 4]⟩, ⟨2, [1, 2]⟩, by decide, by decide, by decide, by decide⟩

/-- C39 (partial): for one value per object `extract_element` moves the object and fills the hole with the last one.
Missing: false for several values per object, see `C39_extract_element_defect`. -/
theorem C39_extract_element_partial {α} (garbage : Nat → α) (f tgt : PField α) (hf : f.WF) (ht : tgt.WF) (h1 : f.nvar = 1)
    (h2 : tgt.nvar = 1) (p : Nat) (hp : p < f.count) (hsz : tgt.count + 1 < 2 ^ 32) :
    ∃ f' tgt', f.extractElement garbage p tgt = .ok (f', tgt') ∧ tgt'.objs = tgt.objs ++ [f.obj p] ∧
      f'.count + 1 = f.count ∧ ∀ k < f'.count, f'.obj k = f.obj (if k = p then f.count - 1 else k) := by
  obtain ⟨nv, fb⟩ := f
  obtain ⟨nv2, tb⟩ := tgt
  simp only at h1 h2
  subst h1; subst h2
  have hc : (PField.mk 1 fb).count = fb.length := by simp [PField.count]
  have hct : (PField.mk 1 tb).count = tb.length := by simp [PField.count]
  rw [hc] at hp; rw [hct] at hsz
  have hlt : fb.length < 2 ^ 32 := hf.lt
  have hlt2 : tb.length < 2 ^ 32 := ht.lt
  have ho : ∀ (l : List α) (k : Nat) (h : k < l.length), (PField.mk 1 l).obj k = [l[k]'h] := by
    intro l k h
    unfold PField.obj
    simp only [Nat.mul_one]
    rw [List.drop_eq_getElem_cons h]; rfl
  have hobjs : ∀ l : List α, (PField.mk 1 l).objs = l.map (fun x => [x]) := by
    intro l
    unfold PField.objs PField.count
    simp only [Nat.div_one]
    apply List.ext_getElem?
    intro k
    by_cases hk : k < l.length
    · rw [List.getElem?_map, List.getElem?_range hk, List.getElem?_map, List.getElem?_eq_getElem hk, Option.map_some, ho l k hk]; rfl
    · rw [List.getElem?_eq_none (by simp; omega), List.getElem?_eq_none (by simp; omega)]
  have hexp : (PField.mk 1 tb).expand garbage 1 = .ok ⟨1, tb ++ [garbage 0]⟩ := by
    unfold PField.expand PField.resize narrow32
    rw [objCnt_ok ht, hct]
    simp only [Res.ok_bind, Nat.mod_eq_of_lt hsz, Nat.mul_one, if_pos hsz, Res.pure_eq]
    unfold bufResize
    rw [List.take_of_length_le (by omega)]
    simp
  have hrun : (PField.mk 1 fb).extractElement garbage p (PField.mk 1 tb) =
      .ok (⟨1, (fb.set p (fb[fb.length - 1]'(by omega))).take (fb.length - 1)⟩, ⟨1, tb ++ [fb[p]]⟩) := by
    unfold PField.extractElement
    rw [valCnt_ok ht, valCnt_ok hf]
    simp only [Res.ok_bind]
    rw [hexp]
    have e0 : u32mul p 1 = p := by unfold u32mul; rw [Nat.mul_one]; exact Nat.mod_eq_of_lt (by omega)
    simp only [Res.ok_bind, e0]
    have hst : (List.range 1).reverse.foldlM (extractStep p tb.length fb.length) (fb, tb ++ [garbage 0]) =
        some (fb.set p (fb[fb.length - 1]'(by omega)), tb ++ [fb[p]]) := by
      show (extractStep p tb.length fb.length (fb, tb ++ [garbage 0]) 0 >>= fun s => pure s) = _
      unfold extractStep
      simp only [Nat.add_zero]
      rw [List.getElem?_eq_getElem (show fb.length - 1 < fb.length by omega), List.getElem?_eq_getElem hp]
      simp only [Option.bind_eq_bind, Option.bind_some]
      rw [wr_some _ _ _ hp, Option.bind_some, wr_some _ _ _ (by simp)]
      simp
    rw [hst]
    simp only [Res.ofOpt_some, Res.ok_bind]
    unfold PField.shrink PField.resize PField.objCnt narrow32
    simp only [List.length_set, Nat.mod_one, Nat.div_one, Nat.mul_one]
    rw [if_neg (by simp), if_pos hlt]
    simp only [Res.ok_bind]
    rw [if_neg (by omega), if_pos (by omega)]
    simp only [Res.ok_bind, Res.pure_eq]
    unfold bufResize
    rw [show fb.length - 1 - (fb.set p fb[fb.length - 1]).length = 0 by simp]
    simp
  refine ⟨_, _, hrun, ?_, ?_, ?_⟩
  · rw [hobjs, hobjs, ho fb p hp]; simp
  · simp only [PField.count, Nat.div_one, List.length_take, List.length_set]; omega
  · intro k hk
    have hk' : k < fb.length - 1 := by
      simp only [PField.count, Nat.div_one, List.length_take, List.length_set] at hk; omega
    rw [ho _ k (by simp; omega)]
    simp only [PField.count, Nat.div_one]
    by_cases hkp : k = p
    · rw [if_pos hkp, ho fb _ (by omega)]
      subst hkp
      simp
    · rw [if_neg hkp, ho fb _ (by omega)]
      simp only [List.getElem_take]
      rw [List.getElem_set_ne (by omega)]

/-- Non trivial cases: 3 objects of 2 values. -/
example : (PField.mk 2 [1, 2, 3, 4, 5, 6]).WF ∧ (PField.mk 2 [1, 2, 3, 4, 5, 6]).objs = [[1, 2], [3, 4], [5, 6]] ∧
    (PField.mk 2 [1, 2, 3, 4, 5, 6]).extractElements (fun _ => 0) (fun _ => 0) List.range [2, 0] (PField.mk 2 [9, 9]) =
      .ok (⟨2, [3, 4]⟩, ⟨2, [9, 9, 5, 6, 1, 2]⟩) := by
  refine ⟨⟨by decide, by decide, by decide⟩, by decide, by decide⟩

example : (PField.mk 2 [1, 2, 3, 4]).permutVars List.range [1, 0] = .ok ⟨2, [2, 1, 4, 3]⟩ := by decide

example : (PField.mk 2 [1, 2, 3, 4]).removeIds (fun _ => 0) (fun _ => 0) List.range [1, 1] 2 = .throws := by decide

end Shamrock
