import Verif.Model.Amr
import Verif.Proof.Kernel
/-! The 2:1 refinement sweeps of the AMR pass. -/
namespace Shamrock.Amr

/-- Levels are far from the `u64` limit. -/
def LvOk (G : Grid) : Prop := ∀ i, G.lv i < 9223372036854775808

theorem fires_iff {G : Grid} (h : LvOk G) (b nid c nf : Nat) :
    fires G b nid c nf = true ↔ c ≠ 0 ∧ nf = 0 ∧ G.lv nid < G.lv b := by
  have h1 := h b
  have h2 := h nid
  unfold fires w64
  by_cases hf : nf = 0
  · subst hf
    simp only [Bool.and_eq_true, decide_eq_true_eq, ne_eq, not_true_eq_false, if_false, and_true, true_and]
    constructor
    · rintro ⟨a, b⟩; exact ⟨a, by omega⟩
    · rintro ⟨a, b⟩; exact ⟨a, by omega⟩
  · simp [hf]

/-- The three steps on each neighbour. -/
def trips (G : Grid) (b : Nat) (l : List Nat) : List (KStep (Nat × Nat) Nat) :=
  l.flatMap fun nid => [neighStep G nid, setStep G b nid, changeStep G b nid]

theorem trips_length (G : Grid) (b : Nat) (l : List Nat) : (trips G b l).length = 3 * l.length := by
  unfold trips
  induction l with
  | nil => rfl
  | cons a l ih => rw [List.flatMap_cons, List.length_append, ih, List.length_cons]; simp; omega

/-- Where an item is. -/
def ItemAt (G : Grid) (fl mem : List Nat) (t : Nat) (rem : List (KStep (Nat × Nat) Nat)) (loc : Nat × Nat) : Prop :=
  rem = refItem G t ∨
    (loc.1 = 0 ∨ loc.1 = 1) ∧ (loc.1 = 1 → mem[t]? = some 1) ∧ (fl[t]? = some 1 → loc.1 = 1) ∧
      ∃ done todo, G.links t = done ++ todo ∧ (∀ nid ∈ done, nid < G.n → G.lv nid < G.lv t → loc.1 = 1 → mem[nid]? = some 1) ∧
        (rem = trips G t todo ∨
          (∃ nid r, todo = nid :: r ∧ rem = setStep G t nid :: changeStep G t nid :: trips G t r ∧
            (loc.1 = 1 → nid < G.n → loc.2 = 0 ∧ fl[nid]? = some 0 ∨ loc.2 = 1 ∧ mem[nid]? = some 1)) ∨
          (∃ nid r, todo = nid :: r ∧ rem = changeStep G t nid :: trips G t r ∧
            (loc.1 = 1 → nid < G.n → loc.2 = 0 → fl[nid]? = some 0) ∧
            (loc.1 = 1 → nid < G.n → G.lv nid < G.lv t → mem[nid]? = some 1)))

theorem ItemAt.mono {G : Grid} {fl mem mem' : List Nat} {t rem loc} (h : ItemAt G fl mem t rem loc)
    (hm : ∀ i : Nat, mem[i]? = some 1 → mem'[i]? = some 1) : ItemAt G fl mem' t rem loc := by
  rcases h with h | ⟨h1, h2, h3, done, todo, h4, h5, h6⟩
  · exact Or.inl h
  · refine Or.inr ⟨h1, fun h => hm _ (h2 h), h3, done, todo, h4, fun nid a b c d => hm _ (h5 nid a b c d), ?_⟩
    rcases h6 with h6 | ⟨nid, r, a, b, c⟩ | ⟨nid, r, a, b, c0, c⟩
    · exact Or.inl h6
    · exact Or.inr (Or.inl ⟨nid, r, a, b, fun x y => (c x y).imp id (fun z => ⟨z.1, hm _ z.2⟩)⟩)
    · exact Or.inr (Or.inr ⟨nid, r, a, b, c0, fun x y z => hm _ (c x y z)⟩)

/-- `b` forces its neighbour `i` to refine. -/
def Forces (G : Grid) (b i : Nat) : Prop := i < G.n ∧ i ∈ G.links b ∧ G.lv i < G.lv b

structure RefInv (G : Grid) (fl : List Nat) (st : KState (Nat × Nat) Nat) : Prop where
  len : st.mem.length = G.n + 1
  bin : ∀ i < G.n + 1, st.mem[i]? = some 0 ∨ st.mem[i]? = some 1
  keep : ∀ i < G.n, fl[i]? = some 1 → st.mem[i]? = some 1
  just : ∀ i < G.n, fl[i]? = some 0 → st.mem[i]? = some 1 → ∃ b < G.n, st.mem[b]? = some 1 ∧ Forces G b i
  chg : st.mem[G.n]? = some 1 → ∃ i < G.n, fl[i]? = some 0 ∧ st.mem[i]? = some 1
  pend : ∀ i < G.n, fl[i]? = some 0 → st.mem[i]? = some 1 → st.mem[G.n]? = some 1 ∨
    ∃ t < G.n, ∃ done nid r, G.links t = done ++ nid :: r ∧ (st.rem t).length = 1 + 3 * r.length ∧ (st.loc t).1 = 1 ∧ nid < G.n ∧
      fires G t nid (st.loc t).1 (st.loc t).2 = true
  idle : ∀ t, G.n ≤ t → st.rem t = []
  item : ∀ t < G.n, ItemAt G fl st.mem t (st.rem t) (st.loc t)

/-- Step of an item that leaves the buffer as it is. -/
theorem RefInv.read {G : Grid} {fl : List Nat} {st : KState (Nat × Nat) Nat} (h : RefInv G fl st) (t : Nat)
    (s r) (hr : st.rem t = s :: r) (l' : Nat × Nat) (hs : s (st.loc t) st.mem = some (l', st.mem))
    (hnc : ∀ done nid q, G.links t = done ++ nid :: q → r.length = 3 * q.length → (st.loc t).1 = 1 → nid < G.n →
      fires G t nid (st.loc t).1 (st.loc t).2 = true → False)
    (hi : ItemAt G fl st.mem t r l') :
    ∃ st', st.step t = some st' ∧ RefInv G fl st' ∧ (∀ j, (st'.rem j).length = if j = t then (st.rem j).length - 1 else (st.rem j).length) := by
  refine ⟨⟨fun k => if k = t then r else st.rem k, fun k => if k = t then l' else st.loc k, st.mem⟩, ?_,
    ⟨h.len, h.bin, h.keep, h.just, h.chg, ?_, ?_, ?_⟩, ?_⟩
  · unfold KState.step; rw [hr]; simp only [hs, Option.bind_eq_bind, Option.bind_some, Option.pure_def]
  · intro i hi' h0 h1
    rcases h.pend i hi' h0 h1 with e | ⟨q, hq, done, nid, r', e0, e1, e2, e3, e4⟩
    · exact Or.inl e
    · by_cases hqt : q = t
      · subst hqt
        rw [hr, List.length_cons] at e1
        exact (hnc done nid r' e0 (by omega) e2 e3 e4).elim
      · refine Or.inr ⟨q, hq, done, nid, r', e0, ?_, ?_, e3, ?_⟩
        · dsimp only; rw [if_neg hqt]; exact e1
        · dsimp only; rw [if_neg hqt]; exact e2
        · dsimp only; rw [if_neg hqt]; exact e4
  · intro q hq
    dsimp only
    by_cases hqt : q = t
    · subst hqt; have := h.idle q hq; rw [hr] at this; cases this
    · rw [if_neg hqt]; exact h.idle q hq
  · intro q hq
    dsimp only
    by_cases hqt : q = t
    · subst hqt; rw [if_pos rfl, if_pos rfl]; exact hi
    · rw [if_neg hqt, if_neg hqt]; exact h.item q hq
  · intro j
    dsimp only
    by_cases hj : j = t
    · subst hj; rw [if_pos rfl, if_pos rfl, hr]; simp
    · rw [if_neg hj, if_neg hj]

theorem RefInv.step {G : Grid} (hlv : LvOk G) {fl : List Nat} (hb : ∀ i < G.n, fl[i]? = some 0 ∨ fl[i]? = some 1) {st : KState (Nat × Nat) Nat} (h : RefInv G fl st) (t : Nat) :
    ∃ st', st.step t = some st' ∧ RefInv G fl st' ∧ (∀ j, (st'.rem j).length = if j = t then (st.rem j).length - 1 else (st.rem j).length) := by
  have stay : st.rem t = [] → ∃ st', st.step t = some st' ∧ RefInv G fl st' ∧
      (∀ j, (st'.rem j).length = if j = t then (st.rem j).length - 1 else (st.rem j).length) := by
    intro hr
    refine ⟨st, by unfold KState.step; rw [hr], h, fun j => ?_⟩
    split
    · rename_i hj; subst hj; rw [hr]; rfl
    · rfl
  by_cases ht : t < G.n
  swap
  · exact stay (h.idle t (by omega))
  rcases h.item t ht with hr | ⟨c1, c2, c3, done, todo, hl, hd, hph⟩
  · -- own flag
    have hv := h.bin t (by omega)
    have : ∃ v, st.mem[t]? = some v ∧ (v = 0 ∨ v = 1) := by
      rcases hv with e | e
      · exact ⟨0, e, Or.inl rfl⟩
      · exact ⟨1, e, Or.inr rfl⟩
    obtain ⟨v, hv, hv'⟩ := this
    refine h.read t _ _ hr (v, (st.loc t).2) (by simp only [ownStep, hv, Option.map_some]) ?_ ?_
    · intro done nid q e1 e2
      exfalso
      have e3 := trips_length G t (G.links t)
      unfold trips at e3
      rw [e3, e1, List.length_append, List.length_cons] at e2
      omega
    · refine Or.inr ⟨hv', fun e => by rw [hv]; exact congrArg some e, fun e => ?_, [], G.links t, rfl, fun _ h => absurd h List.not_mem_nil, Or.inl rfl⟩
      have := h.keep t ht e
      rw [hv] at this
      exact Option.some.inj this
  · rcases hph with hr | ⟨nid, r, htd, hr, hp⟩ | ⟨nid, r, htd, hr, hp0, hp⟩
    · -- next neighbour
      cases todo with
      | nil => exact stay hr
      | cons nid r =>
        have hr' : st.rem t = neighStep G nid :: setStep G t nid :: changeStep G t nid :: trips G t r := by
          rw [hr]; rfl
        have hnc : ∀ done nid' q, G.links t = done ++ nid' :: q →
            (setStep G t nid :: changeStep G t nid :: trips G t r).length = 3 * q.length → (st.loc t).1 = 1 → nid' < G.n →
            fires G t nid' (st.loc t).1 (st.loc t).2 = true → False := by
          intro _ nid' q _ e
          have e3 := trips_length G t r
          rw [List.length_cons, List.length_cons, e3] at e
          omega
        by_cases hsk : (st.loc t).1 = 0 ∨ G.n ≤ nid
        · refine h.read t _ _ hr' (st.loc t) (by unfold neighStep; rw [if_pos hsk]) hnc ?_
          refine Or.inr ⟨c1, c2, c3, done, nid :: r, hl, hd, Or.inr (Or.inl ⟨nid, r, rfl, rfl, fun a b => ?_⟩)⟩
          rcases hsk with e | e
          · omega
          · omega
        · have hv := h.bin nid (by omega)
          have : ∃ v, st.mem[nid]? = some v ∧ (v = 0 ∨ v = 1) := by
            rcases hv with e | e
            · exact ⟨0, e, Or.inl rfl⟩
            · exact ⟨1, e, Or.inr rfl⟩
          obtain ⟨v, hv, hv'⟩ := this
          refine h.read t _ _ hr' ((st.loc t).1, v) (by unfold neighStep; rw [if_neg hsk, hv]; rfl) hnc ?_
          refine Or.inr ⟨c1, c2, c3, done, nid :: r, hl, hd, Or.inr (Or.inl ⟨nid, r, rfl, rfl, fun a b => ?_⟩)⟩
          rcases hv' with e | e
          · refine Or.inl ⟨e, ?_⟩
            rcases hb nid b with q | q
            · exact q
            · have := h.keep nid b q
              rw [hv, e] at this
              cases this
          · exact Or.inr ⟨e, by rw [hv, e]⟩
    · -- set
      have h00 : (st.loc t).1 = 1 → nid < G.n → (st.loc t).2 = 0 → fl[nid]? = some 0 := by
        intro a b c
        rcases hp a b with e | e
        · exact e.2
        · omega
      by_cases hf : ¬ ((st.loc t).1 = 0 ∨ G.n ≤ nid) ∧ fires G t nid (st.loc t).1 (st.loc t).2 = true
      · obtain ⟨hns, hf⟩ := hf
        have hone : (st.loc t).1 = 1 := by omega
        have hnid : nid < G.n := by omega
        have hlt : G.lv nid < G.lv t := ((fires_iff hlv _ _ _ _).1 hf).2.2
        have hmono : ∀ i : Nat, st.mem[i]? = some 1 → (st.mem.set nid 1)[i]? = some 1 := by
          intro i hi
          rw [List.getElem?_set]
          split
          · rw [if_pos (by rw [h.len]; omega)]
          · exact hi
        have hself : (st.mem.set nid 1)[nid]? = some 1 := by
          rw [List.getElem?_set_self (by rw [h.len]; omega)]
        have hoth : ∀ i : Nat, i ≠ nid → (st.mem.set nid 1)[i]? = st.mem[i]? := fun i hi => List.getElem?_set_ne (fun e => hi e.symm)
        have hforce : Forces G t nid := ⟨hnid, by rw [hl, htd]; simp, hlt⟩
        refine ⟨⟨fun k => if k = t then changeStep G t nid :: trips G t r else st.rem k, fun k => if k = t then st.loc t else st.loc k,
          st.mem.set nid 1⟩, ?_, ⟨?_, ?_, ?_, ?_, ?_, ?_, ?_, ?_⟩, ?_⟩
        · unfold KState.step
          rw [hr]
          simp only [setStep, if_neg hns, if_pos hf, if_pos (show nid < st.mem.length by rw [h.len]; omega), Option.bind_eq_bind,
            Option.bind_some, Option.pure_def]
        · dsimp only; rw [List.length_set]; exact h.len
        · intro i hi
          dsimp only
          by_cases e : i = nid
          · subst e; exact Or.inr hself
          · rw [hoth i e]; exact h.bin i hi
        · intro i hi e; exact hmono i (h.keep i hi e)
        · intro i hi e0 e1
          dsimp only at e1 ⊢
          by_cases e : i = nid
          · subst e; exact ⟨t, ht, hmono t (c2 hone), hforce⟩
          · rw [hoth i e] at e1
            obtain ⟨b, b1, b2, b3⟩ := h.just i hi e0 e1
            exact ⟨b, b1, hmono b b2, b3⟩
        · intro e
          dsimp only at e ⊢
          rw [hoth _ (by omega)] at e
          obtain ⟨i, i1, i2, i3⟩ := h.chg e
          exact ⟨i, i1, i2, hmono i i3⟩
        · intro i hi e0 e1
          refine Or.inr ⟨t, ht, done, nid, r, by rw [hl, htd], ?_, by simpa using hone, hnid, by simpa using hf⟩
          dsimp only
          rw [if_pos rfl, List.length_cons, trips_length]; omega
        · intro q hq
          dsimp only
          rw [if_neg (by omega)]; exact h.idle q hq
        · intro q hq
          dsimp only
          by_cases hqt : q = t
          · subst hqt
            rw [if_pos rfl, if_pos rfl]
            exact Or.inr ⟨c1, fun e => hmono _ (c2 e), c3, done, todo, hl, fun n' a b c d => hmono _ (hd n' a b c d),
              Or.inr (Or.inr ⟨nid, r, htd, rfl, h00, fun _ _ _ => hself⟩)⟩
          · rw [if_neg hqt, if_neg hqt]; exact (h.item q hq).mono hmono
        · intro j
          dsimp only
          by_cases hj : j = t
          · subst hj; rw [if_pos rfl, if_pos rfl, hr]; simp
          · rw [if_neg hj, if_neg hj]
      · refine h.read t _ _ hr (st.loc t) ?_ ?_ ?_
        · unfold setStep
          by_cases hns : (st.loc t).1 = 0 ∨ G.n ≤ nid
          · rw [if_pos hns]
          · rw [if_neg hns, if_neg (fun e => hf ⟨hns, e⟩)]
        · intro _ nid' q _ e
          have e3 := trips_length G t r
          rw [List.length_cons, e3] at e
          omega
        · refine Or.inr ⟨c1, c2, c3, done, todo, hl, hd, Or.inr (Or.inr ⟨nid, r, htd, rfl, h00, fun a b c => ?_⟩)⟩
          rcases hp a b with e | e
          · exact absurd ⟨by omega, (fires_iff hlv _ _ _ _).2 ⟨by omega, e.1, c⟩⟩ hf
          · exact e.2
    · -- changed
      have hdone : ∀ n' ∈ done ++ [nid], n' < G.n → G.lv n' < G.lv t → (st.loc t).1 = 1 → st.mem[n']? = some 1 := by
        intro n' a b c d
        rcases List.mem_append.1 a with a | a
        · exact hd n' a b c d
        · rw [List.mem_singleton] at a; subst a; exact hp d b c
      have hl' : G.links t = (done ++ [nid]) ++ r := by rw [hl, htd]; simp
      by_cases hf : ¬ ((st.loc t).1 = 0 ∨ G.n ≤ nid) ∧ fires G t nid (st.loc t).1 (st.loc t).2 = true
      · obtain ⟨hns, hf⟩ := hf
        have hone : (st.loc t).1 = 1 := by omega
        have hnid : nid < G.n := by omega
        have hfi := (fires_iff hlv _ _ _ _).1 hf
        have hmono : ∀ i : Nat, st.mem[i]? = some 1 → (st.mem.set G.n 1)[i]? = some 1 := by
          intro i hi
          rw [List.getElem?_set]
          split
          · rw [if_pos (by rw [h.len]; omega)]
          · exact hi
        have hself : (st.mem.set G.n 1)[G.n]? = some 1 := by
          rw [List.getElem?_set_self (by rw [h.len]; omega)]
        have hoth : ∀ i : Nat, i < G.n → (st.mem.set G.n 1)[i]? = st.mem[i]? := fun i hi => List.getElem?_set_ne (by omega)
        -- is the neighbour flag new?
        refine ⟨⟨fun k => if k = t then trips G t r else st.rem k, fun k => if k = t then st.loc t else st.loc k,
          st.mem.set G.n 1⟩, ?_, ⟨?_, ?_, ?_, ?_, ?_, ?_, ?_, ?_⟩, ?_⟩
        · unfold KState.step
          rw [hr]
          simp only [changeStep, if_neg hns, if_pos hf, if_pos (show G.n < st.mem.length by rw [h.len]; omega), Option.bind_eq_bind,
            Option.bind_some, Option.pure_def]
        · dsimp only; rw [List.length_set]; exact h.len
        · intro i hi
          dsimp only
          by_cases e : i = G.n
          · subst e; exact Or.inr hself
          · rw [hoth i (by omega)]; exact h.bin i hi
        · intro i hi e; exact hmono i (h.keep i hi e)
        · intro i hi e0 e1
          dsimp only at e1 ⊢
          rw [hoth i hi] at e1
          obtain ⟨b, b1, b2, b3⟩ := h.just i hi e0 e1
          exact ⟨b, b1, hmono b b2, b3⟩
        · intro _
          -- the item saw the flag of `nid` unset, so it was not set before the launch
          exact ⟨nid, hnid, hp0 hone hnid hfi.2.1, hmono _ (hp hone hnid hfi.2.2)⟩
        · intro i hi e0 e1; exact Or.inl hself
        · intro q hq
          dsimp only
          rw [if_neg (by omega)]; exact h.idle q hq
        · intro q hq
          dsimp only
          by_cases hqt : q = t
          · subst hqt
            rw [if_pos rfl, if_pos rfl]
            exact Or.inr ⟨c1, fun e => hmono _ (c2 e), c3, done ++ [nid], r, hl', fun n' a b c d => hmono _ (hdone n' a b c d), Or.inl rfl⟩
          · rw [if_neg hqt, if_neg hqt]; exact (h.item q hq).mono hmono
        · intro j
          dsimp only
          by_cases hj : j = t
          · subst hj; rw [if_pos rfl, if_pos rfl, hr]; simp
          · rw [if_neg hj, if_neg hj]
      · refine h.read t _ _ hr (st.loc t) ?_ ?_ ?_
        · unfold changeStep
          by_cases hns : (st.loc t).1 = 0 ∨ G.n ≤ nid
          · rw [if_pos hns]
          · rw [if_neg hns, if_neg (fun e => hf ⟨hns, e⟩)]
        · intro done' nid' q e1 e2 a b c
          have e3 := trips_length G t r
          rw [e3] at e2
          have e4 : nid' :: q = nid :: r := by
            have e5 : done' ++ nid' :: q = done ++ nid :: r := by rw [← e1, hl, htd]
            exact (List.append_inj' e5 (by simp; omega)).2
          injection e4 with e4 _
          subst e4
          exact hf ⟨by omega, c⟩
        · exact Or.inr ⟨c1, c2, c3, done ++ [nid], r, hl', hdone, Or.inl rfl⟩

theorem RefInv.exec {G : Grid} (hlv : LvOk G) {fl : List Nat} (hb : ∀ i < G.n, fl[i]? = some 0 ∨ fl[i]? = some 1) :
    ∀ (sched : List Nat) (st : KState (Nat × Nat) Nat), RefInv G fl st →
    ∃ st', st.exec sched = some st' ∧ RefInv G fl st' ∧ (∀ j, (st'.rem j).length = (st.rem j).length - sched.count j) := by
  intro sched
  induction sched with
  | nil => intro st h; exact ⟨st, rfl, h, fun k => by simp⟩
  | cons t r ih =>
    intro st h
    obtain ⟨s1, a1, a2, a3⟩ := h.step hlv hb t
    obtain ⟨s2, b1, b2, b3⟩ := ih s1 a2
    refine ⟨s2, ?_, b2, ?_⟩
    · simp only [KState.exec, a1, Option.bind_eq_bind, Option.bind_some]; exact b1
    · intro k
      rw [b3 k, a3 k, List.count_cons]
      by_cases hk : k = t
      · subst hk; simp; omega
      · have : ¬ t = k := fun h => hk h.symm
        simp [hk, this]

/-- Flags are 0 or 1, one per block. -/
def IsFlags (G : Grid) (fl : List Nat) : Prop := fl.length = G.n ∧ ∀ i < G.n, fl[i]? = some 0 ∨ fl[i]? = some 1

/-- One sweep, whatever its schedule. -/
theorem refSweep_ok {G : Grid} (hlv : LvOk G) {fl : List Nat} (hf : IsFlags G fl) (sched : List Nat) :
    ∃ fl' c, refSweep G sched fl = some (fl', c) ∧ IsFlags G fl' ∧ (∀ i < G.n, fl[i]? = some 1 → fl'[i]? = some 1) ∧
      (∀ i < G.n, fl[i]? = some 0 → fl'[i]? = some 1 → ∃ b < G.n, fl'[b]? = some 1 ∧ Forces G b i) ∧
      (∀ b < G.n, fl[b]? = some 1 → ∀ i, Forces G b i → fl'[i]? = some 1) ∧ (c = 0 → fl' = fl) ∧
      (c ≠ 0 → ∃ i < G.n, fl[i]? = some 0 ∧ fl'[i]? = some 1) := by
  obtain ⟨hlen, hb⟩ := hf
  have h0 : ∀ i < G.n, (fl ++ [0])[i]? = fl[i]? := fun i hi => List.getElem?_append_left (by omega)
  have hn0 : (fl ++ [0])[G.n]? = some 0 := by rw [← hlen]; simp
  have hinit : RefInv G fl (⟨fun t => if t < G.n then refItem G t else [], fun _ => (0, 0), fl ++ [0]⟩ : KState (Nat × Nat) Nat) := by
    refine ⟨by simp [hlen], ?_, ?_, ?_, ?_, ?_, ?_, ?_⟩
    · intro i hi
      dsimp only
      by_cases e : i = G.n
      · subst e; exact Or.inl hn0
      · rw [h0 i (by omega)]; exact hb i (by omega)
    · intro i hi e; dsimp only; rw [h0 i hi]; exact e
    · intro i hi e0 e1; dsimp only at e1; rw [h0 i hi, e0] at e1; cases e1
    · intro e; dsimp only at e; rw [hn0] at e; cases e
    · intro i hi e0 e1; dsimp only at e1; rw [h0 i hi, e0] at e1; cases e1
    · intro t ht; dsimp only; rw [if_neg (by omega)]
    · intro t ht; dsimp only; rw [if_pos ht]; exact Or.inl rfl
  obtain ⟨st, h1, h2, h3⟩ := RefInv.exec hlv hb (sched ++ drain (refItem G) G.n) _ hinit
  have hz : ∀ t < G.n, st.rem t = [] := by
    intro t ht
    have e := h3 t
    simp only [if_pos ht, List.count_append] at e
    have := drain_count (refItem G) G.n t ht
    exact List.length_eq_zero_iff.1 (by omega)
  have htk : ∀ i < G.n, (st.mem.take G.n)[i]? = st.mem[i]? := fun i hi => by rw [List.getElem?_take, if_pos hi]
  have hrun : kLaunch G.n (refItem G) (0, 0) sched (fl ++ [0]) = some st.mem := by unfold kLaunch; rw [h1]; rfl
  have key : ∀ c, st.mem[G.n]? = some c → refSweep G sched fl = some (st.mem.take G.n, c) := by
    intro c hc
    unfold refSweep
    simp only [hrun, hc, Option.bind_eq_bind, Option.bind_some, Option.pure_def]
  have hflags : IsFlags G (st.mem.take G.n) := by
    refine ⟨by rw [List.length_take, h2.len]; omega, fun i hi => ?_⟩
    rw [htk i hi]; exact h2.bin i (by omega)
  have hclosed : ∀ b < G.n, fl[b]? = some 1 → ∀ i, Forces G b i → st.mem[i]? = some 1 := by
    intro b hbn e i ⟨i1, i2, i3⟩
    rcases h2.item b hbn with hr | ⟨-, -, c3, done, todo, hl, hd, hph⟩
    · rw [hz b hbn] at hr; unfold refItem at hr; cases hr
    · have hd' : todo = [] := by
        rcases hph with hr | ⟨nid, r, -, hr, -⟩ | ⟨nid, r, -, hr, -⟩
        · have := trips_length G b todo
          rw [← hr, hz b hbn, List.length_nil] at this
          exact List.length_eq_zero_iff.1 (by omega)
        · rw [hz b hbn] at hr; cases hr
        · rw [hz b hbn] at hr; cases hr
      rw [hd', List.append_nil] at hl
      exact hd i (by rw [← hl]; exact i2) i1 i3 (c3 e)
  have hjust : ∀ i < G.n, fl[i]? = some 0 → (st.mem.take G.n)[i]? = some 1 → ∃ b < G.n, (st.mem.take G.n)[b]? = some 1 ∧ Forces G b i := by
    intro i hi e0 e1
    rw [htk i hi] at e1
    obtain ⟨b, b1, b2, b3⟩ := h2.just i hi e0 e1
    exact ⟨b, b1, by rw [htk b b1]; exact b2, b3⟩
  have hkeep : ∀ i < G.n, fl[i]? = some 1 → (st.mem.take G.n)[i]? = some 1 := fun i hi e => by rw [htk i hi]; exact h2.keep i hi e
  have hcl : ∀ b < G.n, fl[b]? = some 1 → ∀ i, Forces G b i → (st.mem.take G.n)[i]? = some 1 := fun b hbn e i hi => by
    rw [htk i hi.1]; exact hclosed b hbn e i hi
  rcases h2.bin G.n (by omega) with e | e
  · refine ⟨_, 0, key 0 e, hflags, hkeep, hjust, hcl, fun _ => ?_, fun h => absurd rfl h⟩
    apply List.ext_getElem?
    intro i
    by_cases hi : i < G.n
    · rcases hb i hi with q | q
      · rcases hflags.2 i hi with q' | q'
        · rw [q, q']
        · rw [htk i hi] at q'
          rcases h2.pend i hi q q' with w | ⟨t, t1, done, nid, r, -, t2, -⟩
          · rw [e] at w; cases w
          · rw [hz t t1, List.length_nil] at t2; omega
      · rw [q, hkeep i hi q]
    · rw [List.getElem?_eq_none (by rw [hflags.1]; omega), List.getElem?_eq_none (by omega)]
  · refine ⟨_, 1, key 1 e, hflags, hkeep, hjust, hcl, fun h => absurd h (by omega), fun _ => ?_⟩
    obtain ⟨i, i1, i2, i3⟩ := h2.chg e
    exact ⟨i, i1, i2, by rw [htk i i1]; exact i3⟩

/-- Who must refine: the blocks of the criterion, and any block of the patch linked from a block that must refine and is at a higher level. -/
inductive MustRefine (G : Grid) (crit : Nat → Prop) : Nat → Prop
  | wanted (i : Nat) : i < G.n → crit i → MustRefine G crit i
  | forced (b i : Nat) : MustRefine G crit b → i < G.n → i ∈ G.links b → G.lv i < G.lv b → MustRefine G crit i

theorem MustRefine.lt {G : Grid} {crit : Nat → Prop} {i : Nat} (h : MustRefine G crit i) : i < G.n := by
  cases h <;> assumption

theorem refLoop_ok {G : Grid} (M : Nat) (hM : ∀ i < G.n, G.lv i < M) (hlv : LvOk G) (sched : Nat → List Nat) :
    ∀ (k K p : Nat) (fl : List Nat), IsFlags G fl → K + 1 ≤ k → (∀ b < G.n, K ≤ G.lv b → fl[b]? = some 1 → ∀ i, Forces G b i → fl[i]? = some 1) →
    ∃ fl', refLoop G sched k p fl = some (fl', true) ∧ IsFlags G fl' ∧
      ∀ i < G.n, fl'[i]? = some 1 ↔ MustRefine G (fun i => fl[i]? = some 1) i := by
  intro k
  induction k with
  | zero => intro K p fl _ h; omega
  | succ k ih =>
    intro K p fl hf hk hP
    obtain ⟨fl', c, e, f1, f2, f3, f4, f5, f6⟩ := refSweep_ok hlv hf (sched p)
    unfold refLoop
    simp only [e, Option.bind_eq_bind, Option.bind_some, Option.pure_def]
    -- new flags are low
    have hnew : ∀ d i, i < G.n → M - G.lv i ≤ d → fl[i]? = some 0 → fl'[i]? = some 1 → G.lv i + 1 < K := by
      intro d
      induction d with
      | zero => intro i hi hd; have := hM i hi; omega
      | succ d ihd =>
        intro i hi hd e0 e1
        obtain ⟨b, b1, b2, b3⟩ := f3 i hi e0 e1
        rcases hf.2 b b1 with q | q
        · have := ihd b b1 (by have := b3.2.2; have := hM b b1; omega) q b2
          have := b3.2.2
          omega
        · by_cases hKb : K ≤ G.lv b
          · have := hP b b1 hKb q i b3
            rw [e0] at this; cases this
          · have := b3.2.2; omega
    by_cases hc : c = 0
    · rw [if_pos hc]
      have hfl := f5 hc
      subst hfl
      refine ⟨fl', rfl, hf, fun i hi => ⟨fun h => .wanted i hi h, fun h => ?_⟩⟩
      clear hi
      induction h with
      | wanted i _ h => exact h
      | forced b i hb hi hl hlt ihb => exact f4 b hb.lt ihb i ⟨hi, hl, hlt⟩
    · rw [if_neg hc]
      obtain ⟨i0, j1, j2, j3⟩ := f6 hc
      have hK := hnew _ i0 j1 (le_refl _) j2 j3
      obtain ⟨fl2, g1, g2, g3⟩ := ih (K - 1) (p + 1) fl' f1 (by omega) (fun b hbn hKb e1 i hi => by
        rcases hf.2 b hbn with q | q
        · have := hnew _ b hbn (le_refl _) q e1; omega
        · exact f4 b hbn q i hi)
      refine ⟨fl2, g1, g2, fun i hi => (g3 i hi).trans ⟨fun h => ?_, fun h => ?_⟩⟩
      · clear hi
        have hall : ∀ d i, i < G.n → M - G.lv i ≤ d → fl'[i]? = some 1 → MustRefine G (fun i => fl[i]? = some 1) i := by
          intro d
          induction d with
          | zero => intro i hi hd; have := hM i hi; omega
          | succ d ihd =>
            intro i hi hd e1
            rcases hf.2 i hi with q | q
            · obtain ⟨b, b1, b2, b3⟩ := f3 i hi q e1
              exact .forced b i (ihd b b1 (by have := b3.2.2; have := hM b b1; omega) b2) hi b3.2.1 b3.2.2
            · exact .wanted i hi q
        induction h with
        | wanted i hi h => exact hall _ i hi (le_refl _) h
        | forced b i hb hi hl hlt ihb => exact .forced b i ihb hi hl hlt
      · clear hi
        induction h with
        | wanted i hi h => exact .wanted i hi (f2 i hi h)
        | forced b i hb hi hl hlt ihb => exact .forced b i ihb hi hl hlt

end Shamrock.Amr
