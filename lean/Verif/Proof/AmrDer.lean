import Verif.Proof.AmrRef
/-! The geometry kernel and the 2:1 derefinement sweeps of the AMR pass. -/
namespace Shamrock.Amr

/-- What a set merge flag means after the geometry kernel. -/
structure Octet (G : Grid) (ref der0 : List Nat) (i : Nat) : Prop where
  room : i + 8 ≤ G.n
  geom : geomOk (fun k => G.box (i + k)) = true
  want : ∀ k < 8, der0[i + k]? = some 1
  level : ∀ k < 8, G.lv (i + k) = G.lv i
  keep : ref[i]? = some 0

/-- Where an item of the geometry kernel is. -/
def GItem (G : Grid) (ref der0 mem : List Nat) (i : Nat) (rem : List (KStep (List Nat) Nat)) (loc : List Nat) : Prop :=
  (i + 8 ≤ G.n ∧ ∃ j ≤ 8, rem = ((List.range 8).drop j).map (fun k => readFlag (i + k)) ++ [writeFlag G ref i] ∧ loc.length = j ∧
    ∀ (k v : Nat), loc[k]? = some v → v ≠ 0 → der0[i + k]? = some 1) ∨
  (¬ i + 8 ≤ G.n ∧ rem = [writeFlag G ref i]) ∨ (rem = [] ∧ (mem[i]? = some 1 → Octet G ref der0 i))

structure GInv (G : Grid) (ref der0 : List Nat) (st : KState (List Nat) Nat) : Prop where
  len : st.mem.length = G.n
  bin : ∀ i < G.n, st.mem[i]? = some 0 ∨ st.mem[i]? = some 1
  down : ∀ i < G.n, st.mem[i]? = some 1 → der0[i]? = some 1
  idle : ∀ t, G.n ≤ t → st.rem t = []
  item : ∀ t < G.n, GItem G ref der0 st.mem t (st.rem t) (st.loc t)

theorem wantMerge_spec {G : Grid} {ref der0 : List Nat} (hr : IsFlags G ref) {id : Nat} (hid : id + 8 ≤ G.n) (l : List Nat) (hl : l.length = 8)
    (hd : ∀ (k v : Nat), l[k]? = some v → v ≠ 0 → der0[id + k]? = some 1) :
    ∃ b, wantMerge G ref id l = some b ∧ (b = true → Octet G ref der0 id) := by
  have hi : id < G.n := by omega
  have : ∃ r, ref[id]? = some r ∧ (r = 0 ∨ r = 1) := by
    rcases hr.2 id hi with e | e
    · exact ⟨0, e, Or.inl rfl⟩
    · exact ⟨1, e, Or.inr rfl⟩
  obtain ⟨r, e, hr'⟩ := this
  unfold wantMerge
  simp only [e, Option.bind_eq_bind, Option.bind_some, Option.pure_def]
  refine ⟨_, rfl, fun h => ?_⟩
  split at h
  · cases h
  · rename_i hne
    simp only [Bool.and_eq_true] at h
    obtain ⟨⟨h1, h2⟩, h3⟩ := h
    have hr0 : r = 0 := by
      rcases hr' with q | q
      · exact q
      · exfalso; apply hne; simp only [Bool.and_eq_true]; exact ⟨by simp [q], ⟨h1, h2⟩, h3⟩
    refine ⟨hid, h1, fun k hk => ?_, fun k hk => ?_, by rw [e, hr0]⟩
    · have hv : l[k]? = some (l[k]'(by omega)) := List.getElem?_eq_getElem _
      refine hd k _ hv ?_
      have := List.all_eq_true.1 h2 _ (List.getElem_mem (show k < l.length by omega))
      simpa using this
    · have := List.all_eq_true.1 h3 k (List.mem_range.2 hk)
      exact (of_decide_eq_true this).symm

theorem GInv.step {G : Grid} {ref der0 : List Nat} (hr : IsFlags G ref) {st : KState (List Nat) Nat} (h : GInv G ref der0 st)
    (t : Nat) : ∃ st', st.step t = some st' ∧ GInv G ref der0 st' ∧
      (∀ j, (st'.rem j).length = if j = t then (st.rem j).length - 1 else (st.rem j).length) := by
  have stay : st.rem t = [] → ∃ st', st.step t = some st' ∧ GInv G ref der0 st' ∧
      (∀ j, (st'.rem j).length = if j = t then (st.rem j).length - 1 else (st.rem j).length) := by
    intro hr
    refine ⟨st, by unfold KState.step; rw [hr], h, fun j => ?_⟩
    split
    · rename_i hj; subst hj; rw [hr]; rfl
    · rfl
  by_cases ht : t < G.n
  swap
  · exact stay (h.idle t (by omega))
  -- the final write
  have fin : ∀ (v : Nat), (v = 0 ∨ v = 1) → (v = 1 → Octet G ref der0 t) → st.rem t = [writeFlag G ref t] →
      (writeFlag G ref t) (st.loc t) st.mem = some (st.loc t, st.mem.set t v) →
      ∃ st', st.step t = some st' ∧ GInv G ref der0 st' ∧
      (∀ j, (st'.rem j).length = if j = t then (st.rem j).length - 1 else (st.rem j).length) := by
    intro v hv ho hrem hw
    have hself : (st.mem.set t v)[t]? = some v := List.getElem?_set_self (by rw [h.len]; exact ht)
    have hoth : ∀ i : Nat, i ≠ t → (st.mem.set t v)[i]? = st.mem[i]? := fun i hi => List.getElem?_set_ne (fun e => hi e.symm)
    refine ⟨⟨fun k => if k = t then [] else st.rem k, fun k => if k = t then st.loc t else st.loc k, st.mem.set t v⟩, ?_,
      ⟨?_, ?_, ?_, ?_, ?_⟩, ?_⟩
    · unfold KState.step; rw [hrem]; simp only [hw, Option.bind_eq_bind, Option.bind_some, Option.pure_def]
    · dsimp only; rw [List.length_set]; exact h.len
    · intro i hi
      dsimp only
      by_cases e : i = t
      · subst e; rw [hself]; rcases hv with e | e <;> simp [e]
      · rw [hoth i e]; exact h.bin i hi
    · intro i hi e1
      dsimp only at e1
      by_cases e : i = t
      · subst e; rw [hself] at e1; have := (ho (Option.some.inj e1)).want 0 (by omega); simpa using this
      · rw [hoth i e] at e1; exact h.down i hi e1
    · intro q hq; dsimp only; rw [if_neg (by omega)]; exact h.idle q hq
    · intro q hq
      dsimp only
      by_cases e : q = t
      · subst e
        rw [if_pos rfl, if_pos rfl]
        refine Or.inr (Or.inr ⟨rfl, fun e => ?_⟩)
        rw [hself] at e
        exact ho (Option.some.inj e)
      · rw [if_neg e, if_neg e]
        rcases h.item q hq with a | a | ⟨a, b⟩
        · exact Or.inl a
        · exact Or.inr (Or.inl a)
        · exact Or.inr (Or.inr ⟨a, fun w => b (by rw [← hoth q e]; exact w)⟩)
    · intro j
      dsimp only
      by_cases hj : j = t
      · subst hj; rw [if_pos rfl, if_pos rfl, hrem]; simp
      · rw [if_neg hj, if_neg hj]
  rcases h.item t ht with ⟨h8, j, hj, hrem, hlen, hloc⟩ | ⟨h8, hrem⟩ | ⟨hrem, -⟩
  · by_cases hj8 : j = 8
    · subst hj8
      rw [List.drop_of_length_le (by simp), List.map_nil, List.nil_append] at hrem
      obtain ⟨b, hb1, hb2⟩ := wantMerge_spec hr h8 (st.loc t) hlen hloc
      refine fin (if b then 1 else 0) (by cases b <;> simp) (fun e => hb2 (by cases b <;> simp_all)) hrem ?_
      unfold writeFlag
      rw [if_pos (by rw [h.len]; exact ht), if_pos h8, hb1]
      rfl
    · have hj' : j < (List.range 8).length := by simp; omega
      have hd : (List.range 8).drop j = j :: (List.range 8).drop (j + 1) := by
        rw [List.drop_eq_getElem_cons hj']; simp
      have hv : st.mem[t + j]? = some (st.mem[t + j]'(by rw [h.len]; omega)) := List.getElem?_eq_getElem _
      generalize st.mem[t + j]'(by rw [h.len]; omega) = v at hv
      rw [hd, List.map_cons, List.cons_append] at hrem
      refine ⟨⟨fun k => if k = t then ((List.range 8).drop (j + 1)).map (fun k => readFlag (t + k)) ++ [writeFlag G ref t] else st.rem k,
        fun k => if k = t then st.loc t ++ [v] else st.loc k, st.mem⟩, ?_, ⟨h.len, h.bin, h.down, ?_, ?_⟩, ?_⟩
      · unfold KState.step
        rw [hrem]
        simp only [readFlag, hv, Option.map_some, Option.bind_eq_bind, Option.bind_some, Option.pure_def]
      · intro q hq; dsimp only; rw [if_neg (by omega)]; exact h.idle q hq
      · intro q hq
        dsimp only
        by_cases e : q = t
        · subst e
          rw [if_pos rfl, if_pos rfl]
          refine Or.inl ⟨h8, j + 1, by omega, rfl, by rw [List.length_append, hlen]; rfl, fun k w hk hw => ?_⟩
          by_cases hkj : k < j
          · rw [List.getElem?_append_left (by omega)] at hk; exact hloc k w hk hw
          · rw [List.getElem?_append_right (by omega)] at hk
            have : k = j := by
              rcases hkk : k - (st.loc q).length with _ | n
              · omega
              · rw [hkk] at hk; simp at hk
            subst this
            rw [hlen, Nat.sub_self] at hk
            simp only [List.getElem?_cons_zero, Option.some.injEq] at hk
            subst hk
            rcases h.bin (q + k) (by omega) with e | e
            · rw [hv] at e; exact absurd (Option.some.inj e) hw
            · exact h.down (q + k) (by omega) e
        · rw [if_neg e, if_neg e]; exact h.item q hq
      · intro i
        dsimp only
        by_cases hi : i = t
        · subst hi; rw [if_pos rfl, if_pos rfl, hrem]; simp
        · rw [if_neg hi, if_neg hi]
  · refine fin 0 (Or.inl rfl) (fun e => by omega) hrem ?_
    unfold writeFlag
    rw [if_pos (by rw [h.len]; exact ht), if_neg h8]
  · exact stay hrem

theorem GInv.exec {G : Grid} {ref der0 : List Nat} (hr : IsFlags G ref) :
    ∀ (sched : List Nat) (st : KState (List Nat) Nat), GInv G ref der0 st →
    ∃ st', st.exec sched = some st' ∧ GInv G ref der0 st' ∧ (∀ j, (st'.rem j).length = (st.rem j).length - sched.count j) := by
  intro sched
  induction sched with
  | nil => intro st h; exact ⟨st, rfl, h, fun k => by simp⟩
  | cons t r ih =>
    intro st h
    obtain ⟨s1, a1, a2, a3⟩ := h.step hr t
    obtain ⟨s2, b1, b2, b3⟩ := ih s1 a2
    refine ⟨s2, ?_, b2, ?_⟩
    · simp only [KState.exec, a1, Option.bind_eq_bind, Option.bind_some]; exact b1
    · intro k
      rw [b3 k, a3 k, List.count_cons]
      by_cases hk : k = t
      · subst hk; simp; omega
      · have : ¬ t = k := fun h => hk h.symm
        simp [hk, this]

/-- The geometry kernel, whatever its schedule: a flag is left only on the first block of an octet of blocks which all asked to be merged. -/
theorem geom_ok {G : Grid} {ref der0 : List Nat} (hr : IsFlags G ref) (hd : IsFlags G der0) (sched : List Nat) :
    ∃ der, kLaunch G.n (geomItem G ref) [] sched der0 = some der ∧ IsFlags G der ∧ ∀ i < G.n, der[i]? = some 1 → Octet G ref der0 i := by
  have hinit : GInv G ref der0 (⟨fun t => if t < G.n then geomItem G ref t else [], fun _ => [], der0⟩ : KState (List Nat) Nat) := by
    refine ⟨hd.1, hd.2, fun i _ h => h, fun t ht => by dsimp only; rw [if_neg (by omega)], fun t ht => ?_⟩
    dsimp only
    rw [if_pos ht]
    unfold geomItem
    by_cases h8 : t + 8 ≤ G.n
    · rw [if_pos h8]
      exact Or.inl ⟨h8, 0, by omega, rfl, rfl, fun k v hk => by simp at hk⟩
    · rw [if_neg h8]
      exact Or.inr (Or.inl ⟨h8, rfl⟩)
  obtain ⟨st, h1, h2, h3⟩ := GInv.exec hr (sched ++ drain (geomItem G ref) G.n) _ hinit
  refine ⟨st.mem, by unfold kLaunch; rw [h1]; rfl, ⟨h2.len, h2.bin⟩, fun i hi e => ?_⟩
  have hz : st.rem i = [] := by
    have e := h3 i
    simp only [if_pos hi, List.count_append] at e
    have := drain_count (geomItem G ref) G.n i hi
    exact List.length_eq_zero_iff.1 (by omega)
  rcases h2.item i hi with ⟨_, j, _, hrem, _⟩ | ⟨_, hrem⟩ | ⟨_, ho⟩
  · rw [hz] at hrem; simp at hrem
  · rw [hz] at hrem; cases hrem
  · exact ho e

/-! ### The 2:1 derefinement sweeps -/

/-- `neigh_future` as computed, with the flags of `nid`. -/
def futW (G : Grid) (ref der : List Nat) (nid : Nat) : Nat :=
  if der[nid]? = some 1 then u64dec (w64 (G.lv nid + if ref[nid]? = some 1 then 1 else 0)) else w64 (G.lv nid + if ref[nid]? = some 1 then 1 else 0)

theorem neighFuture_eq {G : Grid} {ref der : List Nat} (hr : IsFlags G ref) (hd : IsFlags G der) {nid : Nat} (h : nid < G.n) :
    neighFuture G ref der nid = some (futW G ref der nid) := by
  unfold neighFuture futW
  rcases hr.2 nid h with a | a <;> rcases hd.2 nid h with b | b <;> simp [a, b]

theorem thr_eq {G : Grid} (hlv : LvOk G) (l : Nat) : w64 (u64dec (G.lv l) + 1) = G.lv l := by
  have := hlv l
  unfold u64dec w64
  omega

/-- The check passes for the octet of `lid`. -/
def Stable (G : Grid) (ref der : List Nat) (lid : Nat) : Prop :=
  ∀ k < 8, ∀ nid ∈ G.links (lid + k), nid < G.n → futW G ref der nid ≤ G.lv lid

theorem checkDer_fold {G : Grid} (hlv : LvOk G) {ref old : List Nat} (hr : IsFlags G ref) (hd : IsFlags G old) (lid : Nat) :
    ∀ (l : List Nat) (v : Nat), ∃ r, l.foldlM (checkDer G ref old lid) v = some r ∧
      (((∀ nid ∈ l, nid < G.n → futW G ref old nid ≤ G.lv lid) ∧ r = v) ∨ ((∃ nid ∈ l, nid < G.n ∧ G.lv lid < futW G ref old nid) ∧ r = 0)) := by
  intro l
  induction l with
  | nil => intro v; exact ⟨v, rfl, Or.inl ⟨fun _ h => absurd h List.not_mem_nil, rfl⟩⟩
  | cons a l ih =>
    intro v
    rw [List.foldlM_cons]
    by_cases ha : a < G.n
    · by_cases hbig : G.lv lid < futW G ref old a
      · have : checkDer G ref old lid v a = some 0 := by
          unfold checkDer
          rw [if_pos ha, neighFuture_eq hr hd ha]
          simp only [Option.bind_eq_bind, Option.bind_some, Option.pure_def, thr_eq hlv, gt_iff_lt]
          rw [if_pos hbig]
        obtain ⟨r, h1, h2⟩ := ih 0
        refine ⟨r, by rw [this]; exact h1, Or.inr ⟨⟨a, List.mem_cons_self, ha, hbig⟩, ?_⟩⟩
        rcases h2 with ⟨-, e⟩ | ⟨-, e⟩ <;> exact e
      · have : checkDer G ref old lid v a = some v := by
          unfold checkDer
          rw [if_pos ha, neighFuture_eq hr hd ha]
          simp only [Option.bind_eq_bind, Option.bind_some, Option.pure_def, thr_eq hlv, gt_iff_lt]
          rw [if_neg hbig]
        obtain ⟨r, h1, h2⟩ := ih v
        refine ⟨r, by rw [this]; exact h1, ?_⟩
        rcases h2 with ⟨h2, e⟩ | ⟨⟨nid, a1, a2⟩, e⟩
        · refine Or.inl ⟨fun nid hn hlt => ?_, e⟩
          rcases List.mem_cons.1 hn with rfl | hn
          · omega
          · exact h2 nid hn hlt
        · exact Or.inr ⟨⟨nid, List.mem_cons_of_mem _ a1, a2⟩, e⟩
    · have : checkDer G ref old lid v a = some v := by unfold checkDer; rw [if_neg ha]
      obtain ⟨r, h1, h2⟩ := ih v
      refine ⟨r, by rw [this]; exact h1, ?_⟩
      rcases h2 with ⟨h2, e⟩ | ⟨⟨nid, a1, a2⟩, e⟩
      · refine Or.inl ⟨fun nid hn hlt => ?_, e⟩
        rcases List.mem_cons.1 hn with rfl | hn
        · omega
        · exact h2 nid hn hlt
      · exact Or.inr ⟨⟨nid, List.mem_cons_of_mem _ a1, a2⟩, e⟩

theorem derItem_ok {G : Grid} (hlv : LvOk G) {ref old : List Nat} (hr : IsFlags G ref) (hd : IsFlags G old) {lid : Nat} (h : lid < G.n) :
    ∃ r, derItem G ref old lid = some r ∧ (r = 0 ∨ r = 1) ∧ (r = 1 ↔ old[lid]? = some 1 ∧ Stable G ref old lid) := by
  unfold derItem
  rcases hd.2 lid h with e | e
  · refine ⟨0, by simp [e], Or.inl rfl, ?_⟩
    rw [e]; simp
  · obtain ⟨r, h1, h2⟩ := checkDer_fold hlv hr hd lid ((List.range 8).flatMap fun i => G.links (lid + i)) 1
    refine ⟨r, ?_, ?_, ?_⟩
    · simp only [e, Option.bind_eq_bind, Option.bind_some, ne_eq, one_ne_zero, not_false_eq_true, if_true]; exact h1
    · rcases h2 with ⟨-, e⟩ | ⟨-, e⟩
      · exact Or.inr e
      · exact Or.inl e
    · rcases h2 with ⟨h2, e'⟩ | ⟨⟨nid, a1, a2, a3⟩, e'⟩
      · refine ⟨fun _ => ⟨e, fun k hk nid hn hlt => ?_⟩, fun _ => e'⟩
        exact h2 nid (List.mem_flatMap.2 ⟨k, List.mem_range.2 hk, hn⟩) hlt
      · subst e'
        refine ⟨fun h => by omega, fun ⟨_, hs⟩ => ?_⟩
        obtain ⟨k, hk, hn⟩ := List.mem_flatMap.1 a1
        have := hs k (List.mem_range.1 hk) nid hn a2
        omega

theorem derSweep_ok {G : Grid} (hlv : LvOk G) {ref old : List Nat} (hr : IsFlags G ref) (hd : IsFlags G old) :
    ∃ new c, derSweep G ref old = some (new, c) ∧ IsFlags G new ∧ (∀ i < G.n, new[i]? = some 1 ↔ old[i]? = some 1 ∧ Stable G ref old i) ∧
      (c = false → new = old) ∧ (c = true → ∃ i < G.n, old[i]? ≠ new[i]?) := by
  have hm : ∀ (n : Nat), n ≤ G.n → ∃ new, (List.range n).mapM (derItem G ref old) = some new ∧ new.length = n ∧
      ∀ i < n, ∃ r, new[i]? = some r ∧ derItem G ref old i = some r := by
    intro n
    induction n with
    | zero => intro _; exact ⟨[], rfl, rfl, fun i hi => by omega⟩
    | succ n ih =>
      intro hn
      obtain ⟨new, h1, h2, h3⟩ := ih (by omega)
      obtain ⟨r, r1, -⟩ := derItem_ok hlv hr hd (lid := n) (by omega)
      refine ⟨new ++ [r], ?_, by simp [h2], fun i hi => ?_⟩
      · rw [List.range_succ, List.mapM_append, h1]; simp [r1]
      · by_cases hin : i < n
        · obtain ⟨q, q1, q2⟩ := h3 i hin
          exact ⟨q, by rw [List.getElem?_append_left (by omega)]; exact q1, q2⟩
        · have : i = n := by omega
          subst this
          exact ⟨r, by rw [List.getElem?_append_right (by omega), h2]; simp, r1⟩
  obtain ⟨new, h1, h2, h3⟩ := hm G.n (le_refl _)
  have h4 : ∀ i < G.n, ∃ r, new[i]? = some r ∧ (r = 0 ∨ r = 1) ∧ (r = 1 ↔ old[i]? = some 1 ∧ Stable G ref old i) := by
    intro i hi
    obtain ⟨r, a, b⟩ := h3 i hi
    obtain ⟨r', a', b', c'⟩ := derItem_ok hlv hr hd hi
    rw [b] at a'
    have := Option.some.inj a'
    subst this
    exact ⟨r, a, b', c'⟩
  refine ⟨new, (List.range G.n).any fun i => decide (old[i]? ≠ new[i]?), ?_, ⟨h2, fun i hi => ?_⟩, fun i hi => ?_, fun hc => ?_, fun hc => ?_⟩
  · unfold derSweep; rw [h1]; rfl
  · obtain ⟨r, a, b | b, -⟩ := h4 i hi
    · left; rw [a, b]
    · right; rw [a, b]
  · obtain ⟨r, a, -, c⟩ := h4 i hi
    rw [a, Option.some.injEq]; exact c
  · apply List.ext_getElem?
    intro i
    by_cases hi : i < G.n
    · rw [List.any_eq_false] at hc
      have := hc i (List.mem_range.2 hi)
      simp at this
      exact this.symm
    · rw [List.getElem?_eq_none (by omega), List.getElem?_eq_none (by rw [hd.1]; omega)]
  · rw [List.any_eq_true] at hc
    obtain ⟨i, i1, i2⟩ := hc
    exact ⟨i, List.mem_range.1 i1, by simpa using i2⟩

theorem derLoop_ok {G : Grid} (hlv : LvOk G) {ref : List Nat} (hr : IsFlags G ref) :
    ∀ (k K : Nat) (fl : List Nat), IsFlags G fl → K + 1 ≤ k → (∀ i < G.n, fl[i]? = some 1 → ref[i]? = some 0) →
      (∀ i < G.n, fl[i]? = some 1 → K ≤ G.lv i → Stable G ref fl i) →
    ∃ fl', derLoop G ref k fl = some (fl', true) ∧ IsFlags G fl' ∧ (∀ i < G.n, fl'[i]? = some 1 → fl[i]? = some 1) ∧
      ∀ i < G.n, fl'[i]? = some 1 → Stable G ref fl' i := by
  intro k
  induction k with
  | zero => intro K fl _ h; omega
  | succ k ih =>
    intro K fl hf hk hx hP
    obtain ⟨new, c, e, f1, f2, f3, f4⟩ := derSweep_ok hlv hr hf
    unfold derLoop
    simp only [e, Option.bind_eq_bind, Option.bind_some, Option.pure_def]
    cases c with
    | false =>
      have := f3 rfl
      subst this
      exact ⟨new, rfl, hf, fun _ _ h => h, fun i hi h => ((f2 i hi).1 h).2⟩
    | true =>
      obtain ⟨j, j1, j2⟩ := f4 rfl
      have hlost : fl[j]? = some 1 ∧ ¬ Stable G ref fl j := by
        rcases hf.2 j j1 with q | q
        · exfalso
          rcases f1.2 j j1 with w | w
          · exact j2 (by rw [q, w])
          · have := ((f2 j j1).1 w).1; rw [q] at this; cases this
        · refine ⟨q, fun hs => j2 ?_⟩
          rw [q, (f2 j j1).2 ⟨q, hs⟩]
      have hK : G.lv j < K := by
        by_contra hge
        exact hlost.2 (hP j j1 hlost.1 (by omega))
      obtain ⟨fl', g1, g2, g3, g4⟩ := ih (K - 1) new f1 (by omega) (fun i hi h => hx i hi ((f2 i hi).1 h).1) (fun i hi h hKi => by
        intro q hq nid hn hlt
        obtain ⟨h1, h2⟩ := (f2 i hi).1 h
        have h3 := h2 q hq nid hn hlt
        by_cases hch : fl[nid]? = some 1 ∧ new[nid]? ≠ some 1
        · have hlow : G.lv nid < K := by
            by_contra hge
            exact hch.2 ((f2 nid hlt).2 ⟨hch.1, hP nid hlt hch.1 (by omega)⟩)
          have := hx nid hlt hch.1
          have hl := hlv nid
          unfold futW
          rw [if_neg hch.2, this]
          simp only [Option.some.injEq, zero_ne_one, if_false]
          unfold w64
          omega
        · have : futW G ref new nid = futW G ref fl nid := by
            unfold futW
            by_cases hn1 : new[nid]? = some 1
            · rw [if_pos hn1, if_pos ((f2 nid hlt).1 hn1).1]
            · rw [if_neg hn1, if_neg (fun q => hch ⟨q, hn1⟩)]
          rw [this]; exact h3)
      refine ⟨fl', by simpa using g1, g2, fun i hi h => ((f2 i hi).1 (g3 i hi h)).1, g4⟩

end Shamrock.Amr
