import Verif.Proof.SparseExchange
import Verif.Proof.LimNet
/-! Property C24: sparse exchange tables and the exchange itself. -/
namespace Shamrock

/-- Byte ranges (size, buffer, offset): inside buffers of the given sizes, pairwise disjoint, no buffer above the limit, no byte unused. -/
structure Placed (mx : Nat) (sizes : List Nat) (l : List (Nat × Option (Nat × Nat))) : Prop where
  inside : ∀ x ∈ l, ∃ id off v, x.2 = some (id, off) ∧ sizes[id]? = some v ∧ off + x.1 ≤ v
  disjoint : l.Pairwise fun x y => ∀ p q, x.2 = some p → y.2 = some q → p.1 ≠ q.1 ∨ p.2 + x.1 ≤ q.2 ∨ q.2 + y.1 ≤ p.2
  limit : ∀ v ∈ sizes, v ≤ mx
  total : sizes.sum = (l.map (·.1)).sum

/-- `sub` with indices `ids` is the part of `all` satisfying `c`, in order. -/
structure PickedBy (c : CMsg → Prop) (all sub : List CMsg) (ids : List Nat) : Prop where
  len : ids.length = sub.length
  sorted : ids.Pairwise (· < ·)
  get : ∀ (k i : Nat) m, sub[k]? = some m → ids[k]? = some i → all[i]? = some m
  mem : ∀ i m, all[i]? = some m → (i ∈ ids ↔ c m)

theorem pickMsgs_spec (c : CMsg → Bool) (l : List CMsg) :
    PickedBy (fun m => c m = true) l ((pickMsgs c l).map (·.1)) ((pickMsgs c l).map (·.2)) ∧ (pickMsgs c l).map (·.1) = l.filter c := by
  have hmem : ∀ m i, (m, i) ∈ pickMsgs c l ↔ l[i]? = some m ∧ c m = true := by
    intro m i
    unfold pickMsgs
    rw [List.mem_filter, List.mem_zipIdx_iff_getElem?]
  refine ⟨⟨by simp, ?_, ?_, ?_⟩, ?_⟩
  · have h : (l.zipIdx.map (·.2)).Pairwise (· < ·) := by
      have e : l.zipIdx.map (·.2) = List.range l.length := by
        apply List.ext_getElem?
        intro i
        rw [List.getElem?_map, List.getElem?_zipIdx]
        by_cases hi : i < l.length
        · rw [List.getElem?_eq_getElem hi, List.getElem?_range hi]; simp
        · rw [List.getElem?_eq_none (by omega), List.getElem?_eq_none (by simpa using hi)]; rfl
      rw [e]; exact List.pairwise_lt_range
    unfold pickMsgs
    exact h.sublist (List.Sublist.map _ List.filter_sublist)
  · intro k i m h1 h2
    rw [List.getElem?_map] at h1 h2
    cases hx : (pickMsgs c l)[k]? with
    | none => rw [hx] at h1; simp at h1
    | some x =>
      rw [hx] at h1 h2
      simp only [Option.map_some, Option.some.injEq] at h1 h2
      subst h1; subst h2
      exact ((hmem x.1 x.2).1 (List.mem_of_getElem? hx)).1
  · intro i m hm
    rw [List.mem_map]
    constructor
    · rintro ⟨x, hx, rfl⟩
      obtain ⟨a, b⟩ := (hmem x.1 x.2).1 hx
      rw [hm] at a; cases a; exact b
    · intro hc
      exact ⟨(m, i), (hmem m i).2 ⟨hm, hc⟩, rfl⟩
  · unfold pickMsgs
    have : ∀ (l : List CMsg) k, ((l.zipIdx k).filter fun x => c x.1).map (·.1) = l.filter c := by
      intro l
      induction l with
      | nil => intro k; rfl
      | cons a l ih =>
        intro k
        rw [List.zipIdx_cons]
        cases hc : c a with
        | true => rw [List.filter_cons_of_pos (by simpa using hc), List.filter_cons_of_pos hc, List.map_cons, ih]
        | false => rw [List.filter_cons_of_neg (by simp [hc]), List.filter_cons_of_neg (by simp [hc]), ih]
    exact this l 0

theorem flatten_filter_own (msgs : List (List CMsgIn)) (k r : Nat) (hown : ∀ (r : Nat) l, msgs[r]? = some l → ∀ m ∈ l, m.sender = k + r) (l : List CMsgIn)
    (hl : msgs[r]? = some l) : msgs.flatten.filter (fun m => decide (m.sender = k + r)) = l := by
  induction msgs generalizing k r with
  | nil => simp at hl
  | cons a msgs ih =>
    rw [List.flatten_cons, List.filter_append]
    have htail : ∀ (r : Nat) l, msgs[r]? = some l → ∀ m ∈ l, m.sender = (k + 1) + r := fun r' l' hl' m hm => by
      have := hown (r' + 1) l' (by simpa using hl') m hm; omega
    cases r with
    | zero =>
      simp only [List.getElem?_cons_zero, Option.some.injEq] at hl
      subst hl
      rw [List.filter_eq_self.2 (fun m hm => by simpa using hown 0 a rfl m hm), List.filter_eq_nil_iff.2, List.append_nil]
      intro m hm
      obtain ⟨l', hl', hm'⟩ := List.mem_flatten.1 hm
      obtain ⟨j, hj⟩ := List.getElem?_of_mem hl'
      have := htail j l' hj m hm'
      simp only [decide_eq_true_eq]; omega
    | succ r =>
      have := ih (k + 1) r htail (by simpa using hl)
      rw [show k + 1 + r = k + (r + 1) by omega] at this
      rw [this, List.filter_eq_nil_iff.2, List.nil_append]
      intro m hm
      have := hown 0 a rfl m hm
      simp only [decide_eq_true_eq]; omega

/-- The complete description of the tables used in the proofs. -/
theorem table_spec (mx : Nat) (msgs : List (List CMsgIn)) (h : MsgsOk mx msgs) :
    ∃ all1 : List CMsg, all1.map CMsg.core = msgs.flatten ∧ (∀ m ∈ all1, m.tag.isSome) ∧
      all1.Pairwise (fun a b => a.sender = b.sender → a.tag ≠ b.tag) ∧
      (∀ m ∈ all1, m.sender < msgs.length ∧ m.receiver < msgs.length ∧ 0 < m.size ∧ m.size ≤ mx ∧ m.offSend = none ∧ m.offRecv = none) ∧
      ∀ r < msgs.length, ∃ ps qs s t,
        laySide (fun m => decide (m.sender = r)) mx all1 ⟨[], 0, 0⟩ = .ok (ps, s) ∧
        laySide (fun m => decide (m.receiver = r)) mx all1 ⟨[], 0, 0⟩ = .ok (qs, t) ∧
        buildTable msgs mx r = .ok ⟨(pickMsgs (fun m => decide (m.sender = r)) (withPlaces all1 ps qs)).map (·.1), withPlaces all1 ps qs,
          (pickMsgs (fun m => decide (m.receiver = r)) (withPlaces all1 ps qs)).map (·.1),
          (pickMsgs (fun m => decide (m.sender = r)) (withPlaces all1 ps qs)).map (·.2),
          (pickMsgs (fun m => decide (m.receiver = r)) (withPlaces all1 ps qs)).map (·.2), s.sizes, t.sizes⟩ := by
  have hmem : ∀ m ∈ msgs.flatten, m.sender < msgs.length ∧ m.receiver < msgs.length ∧ 0 < m.size ∧ m.size ≤ mx := by
    intro m hm
    obtain ⟨l, hl, hml⟩ := List.mem_flatten.1 hm
    obtain ⟨j, hj⟩ := List.getElem?_of_mem hl
    have := h.own j l hj m hml
    have hjl := (List.getElem?_eq_some_iff.1 hj).1
    exact ⟨by omega, h.recv l hl m hml, (h.size l hl m hml).1, (h.size l hl m hml).2⟩
  have hr := h.ranks
  have e1 := fetchGlobal_ok msgs h.own h.count
  have e2 := decodeAll_ok msgs.flatten (fun m hm => by have := hmem m hm; omega)
  obtain ⟨all1, t1, t2, t3, t4⟩ := computeTags_ok (msgs.flatten.map rawMsg) (List.replicate msgs.length 0) (by
    intro m hm
    obtain ⟨x, hx, rfl⟩ := List.mem_map.1 hm
    rw [List.length_replicate]; exact (hmem x hx).1)
  have hget : ∀ m ∈ all1, ∃ x ∈ msgs.flatten, ∃ t, m = { rawMsg x with tag := some t } := by
    intro m hm
    obtain ⟨i, hi⟩ := List.getElem?_of_mem hm
    have hil : i < msgs.flatten.length := by
      have := (List.getElem?_eq_some_iff.1 hi).1
      rw [t2, List.length_map] at this; exact this
    obtain ⟨t, a, -⟩ := t3 i (rawMsg msgs.flatten[i]) (by rw [List.getElem?_map, List.getElem?_eq_getElem hil]; rfl)
    rw [hi] at a
    cases a
    exact ⟨_, List.getElem_mem hil, t, rfl⟩
  refine ⟨all1, ?_, ?_, t4, ?_, ?_⟩
  · apply List.ext_getElem?
    intro i
    rw [List.getElem?_map]
    by_cases hil : i < msgs.flatten.length
    · obtain ⟨t, a, -⟩ := t3 i (rawMsg msgs.flatten[i]) (by rw [List.getElem?_map, List.getElem?_eq_getElem hil]; rfl)
      rw [a, List.getElem?_eq_getElem hil]; rfl
    · rw [List.getElem?_eq_none (by rw [t2, List.length_map]; omega), List.getElem?_eq_none (by omega)]; rfl
  · intro m hm
    obtain ⟨x, -, t, rfl⟩ := hget m hm
    rfl
  · intro m hm
    obtain ⟨x, hx, t, rfl⟩ := hget m hm
    obtain ⟨a, b, c, d⟩ := hmem x hx
    exact ⟨a, b, c, d, rfl, rfl⟩
  · intro r hr
    have hsz : ∀ m ∈ all1, 0 < m.size ∧ m.size ≤ mx := by
      intro m hm
      obtain ⟨x, hx, t, rfl⟩ := hget m hm
      exact ⟨(hmem x hx).2.2.1, (hmem x hx).2.2.2⟩
    obtain ⟨ps, s, a1, -⟩ := laySide_ok (fun m => decide (m.sender = r)) mx h.lim all1 (fun m hm _ => hsz m hm) ⟨[], 0, 0⟩ (layInv_init mx)
    obtain ⟨qs, t, b1, -⟩ := laySide_ok (fun m => decide (m.receiver = r)) mx h.lim all1 (fun m hm _ => hsz m hm) ⟨[], 0, 0⟩ (layInv_init mx)
    refine ⟨ps, qs, s, t, a1, b1, ?_⟩
    unfold buildTable
    rw [e1]
    simp only [Res.bind]
    rw [e2]
    simp only
    rw [t1]
    simp only
    rw [layAll_eq mx r all1 _ _ _ _ ps qs a1 b1]

/-- A message without its place in the local buffers. -/
def CMsg.strip (m : CMsg) : CMsg := { m with offSend := none, offRecv := none }

theorem withPlaces_strip (ms : List CMsg) (ps qs : List (Option (Nat × Nat))) (h1 : ps.length = ms.length) (h2 : qs.length = ms.length)
    (hn : ∀ m ∈ ms, m.offSend = none ∧ m.offRecv = none) : (withPlaces ms ps qs).map CMsg.strip = ms := by
  induction ms generalizing ps qs with
  | nil => rfl
  | cons m ms ih =>
    cases ps with
    | nil => simp at h1
    | cons p ps =>
      cases qs with
      | nil => simp at h2
      | cons q qs =>
        simp only [withPlaces, List.map_cons]
        rw [ih ps qs (by simpa using h1) (by simpa using h2) (fun x hx => hn x (List.mem_cons_of_mem _ hx))]
        obtain ⟨a, b⟩ := hn m List.mem_cons_self
        congr 1
        cases m
        simp only at a b
        subst a; subst b
        rfl

/-- Entry `i` of the table list. -/
theorem withPlaces_inv (ms : List CMsg) (ps qs : List (Option (Nat × Nat))) (h1 : ps.length = ms.length) (h2 : qs.length = ms.length) (i : Nat) (x : CMsg)
    (hx : (withPlaces ms ps qs)[i]? = some x) : ∃ m p q, ms[i]? = some m ∧ ps[i]? = some p ∧ qs[i]? = some q ∧ x = { m with offSend := p, offRecv := q } := by
  obtain ⟨a, b⟩ := withPlaces_get ms ps qs h1 h2
  have hl := (List.getElem?_eq_some_iff.1 hx).1
  rw [a] at hl
  have e1 := List.getElem?_eq_getElem hl
  have e2 := List.getElem?_eq_getElem (show i < ps.length by omega)
  have e3 := List.getElem?_eq_getElem (show i < qs.length by omega)
  have := b i _ _ _ e1 e2 e3
  rw [hx] at this
  exact ⟨_, _, _, e1, e2, e3, by simpa using this⟩

theorem pairwise_of_get {α : Type} (R : α → α → Prop) (l : List α) (h : ∀ (i j : Nat) a b, i < j → l[i]? = some a → l[j]? = some b → R a b) : l.Pairwise R := by
  rw [List.pairwise_iff_getElem]
  intro i j hi hj hij
  exact h i j _ _ hij (List.getElem?_eq_getElem hi) (List.getElem?_eq_getElem hj)

/-- The places of one side of a table. -/
theorem placed_of_side (c : CMsg → Bool) (f : CMsg → Option (Nat × Nat)) (mx : Nat) (hmx : mx < 2 ^ 63) (all1 all : List CMsg) (ps : List (Option (Nat × Nat)))
    (s : LaySt) (hsz : ∀ m ∈ all1, 0 < m.size ∧ m.size ≤ mx) (hs : laySide c mx all1 ⟨[], 0, 0⟩ = .ok (ps, s))
    (hall : ∀ (i : Nat) x, all[i]? = some x → ∃ m p, all1[i]? = some m ∧ ps[i]? = some p ∧ f x = p ∧ x.size = m.size ∧ c x = c m)
    (hlen : all.length = all1.length) :
    Placed mx s.sizes ((all.filter c).map fun m => (m.size, f m)) := by
  obtain ⟨ps', s', a1, a2, a3, a4, a5, a6, a7, a8⟩ := laySide_ok c mx hmx all1 (fun m hm _ => hsz m hm) ⟨[], 0, 0⟩ (layInv_init mx)
  rw [hs] at a1
  cases a1
  refine ⟨?_, ?_, a3.le, ?_⟩
  · intro x hx
    obtain ⟨m, hm, rfl⟩ := List.mem_map.1 hx
    obtain ⟨hm, hc⟩ := List.mem_filter.1 hm
    obtain ⟨i, hi⟩ := List.getElem?_of_mem hm
    obtain ⟨m1, p, b1, b2, b3, b4, b5⟩ := hall i m hi
    obtain ⟨id, off, v, c1, c2, c3, c4⟩ := a7 i m1 b1 (by rw [← b5]; exact hc)
    rw [b2] at c1
    cases c1
    exact ⟨id, off, v, b3, c3, by rw [b4]; exact c4⟩
  · apply (List.pairwise_map (f := fun m : CMsg => (m.size, f m))).2
    refine List.Pairwise.filter c ?_
    apply pairwise_of_get
    intro i j a b hij ha hb p q hp hq
    obtain ⟨m1, p1, b1, b2, b3, b4, b5⟩ := hall i a ha
    obtain ⟨m2, p2, d1, d2, d3, d4, d5⟩ := hall j b hb
    simp only at hp hq
    rw [hp] at b3
    rw [hq] at d3
    subst b3; subst d3
    have := a8 i j m1 p q hij b1 b2 d2
    simp only
    omega
  · rw [a5]
    show (List.sum []) + _ = _
    rw [List.sum_nil, Nat.zero_add, List.map_map]
    have key : ∀ (l l1 : List CMsg), l.length = l1.length → (∀ (i : Nat) x, l[i]? = some x → ∃ m, l1[i]? = some m ∧ x.size = m.size ∧ c x = c m) →
        ((l1.filter c).map (·.size)).sum = ((l.filter c).map fun m => m.size).sum := by
      intro l
      induction l with
      | nil => intro l1 hl _; have : l1 = [] := List.length_eq_zero_iff.1 (by simpa using hl.symm); subst this; rfl
      | cons a l ih =>
        intro l1 hl hg
        cases l1 with
        | nil => simp at hl
        | cons b l1 =>
          obtain ⟨m, e1, e2, e3⟩ := hg 0 a rfl
          simp only [List.getElem?_cons_zero, Option.some.injEq] at e1
          subst e1
          have := ih l1 (by simpa using hl) (fun i x hx => by
            obtain ⟨m, f1, f2⟩ := hg (i + 1) x (by simpa using hx)
            exact ⟨m, by simpa using f1, f2⟩)
          cases hc : c b with
          | true =>
            rw [List.filter_cons_of_pos hc, List.filter_cons_of_pos (by rw [e3]; exact hc), List.map_cons, List.map_cons, List.sum_cons, List.sum_cons, this, e2]
          | false =>
            rw [List.filter_cons_of_neg (by simp [hc]), List.filter_cons_of_neg (by rw [e3]; simp [hc]), this]
    exact key all all1 hlen (fun i x hx => by
      obtain ⟨m, p, b1, _, _, b4, b5⟩ := hall i x hx
      exact ⟨m, b1, b4, b5⟩)

/-- **C24, tables.** For every number of ranks, all message lists and limits: every rank builds a table without error; the list of all messages
is the same on all ranks, namely the messages of all ranks in rank order, with tags that distinguish the messages of one sender; the send list of
a rank is its own messages in the order given, its receive list the messages sent to it (so both sides of a message appear with the same tag, size
and global index); the places on each side are disjoint ranges inside buffers no larger than the limit, filling the announced totals exactly. -/
theorem C24_table (mx : Nat) (msgs : List (List CMsgIn)) (h : MsgsOk mx msgs) :
    ∃ all : List CMsg, all.map CMsg.core = msgs.flatten ∧ (∀ m ∈ all, m.tag.isSome) ∧
      all.Pairwise (fun a b => a.sender = b.sender → a.tag ≠ b.tag) ∧
      ∀ (r : Nat) mine, msgs[r]? = some mine → ∃ tab, buildTable msgs mx r = .ok tab ∧ tab.all.map CMsg.strip = all ∧
        PickedBy (fun m => m.sender = r) tab.all tab.send tab.sendIds ∧ tab.send.map CMsg.core = mine ∧
        PickedBy (fun m => m.receiver = r) tab.all tab.recv tab.recvIds ∧
        Placed mx tab.sendSizes (tab.send.map fun m => (m.size, m.offSend)) ∧
        Placed mx tab.recvSizes (tab.recv.map fun m => (m.size, m.offRecv)) := by
  obtain ⟨all1, h1, h2, h3, h4, h5⟩ := table_spec mx msgs h
  refine ⟨all1, h1, h2, h3, fun r mine hr => ?_⟩
  obtain ⟨ps, qs, s, t, a1, a2, a3⟩ := h5 r (List.getElem?_eq_some_iff.1 hr).1
  have hsz : ∀ m ∈ all1, 0 < m.size ∧ m.size ≤ mx := fun m hm => ⟨(h4 m hm).2.2.1, (h4 m hm).2.2.2.1⟩
  obtain ⟨ps', s', b1, b2, -⟩ := laySide_ok (fun m => decide (m.sender = r)) mx h.lim all1 (fun m hm _ => hsz m hm) ⟨[], 0, 0⟩ (layInv_init mx)
  rw [a1] at b1; cases b1
  obtain ⟨qs', t', c1, c2, -⟩ := laySide_ok (fun m => decide (m.receiver = r)) mx h.lim all1 (fun m hm _ => hsz m hm) ⟨[], 0, 0⟩ (layInv_init mx)
  rw [a2] at c1; cases c1
  have hstrip := withPlaces_strip all1 ps qs b2 c2 (fun m hm => ⟨(h4 m hm).2.2.2.2.1, (h4 m hm).2.2.2.2.2⟩)
  have hlen := (withPlaces_get all1 ps qs b2 c2).1
  obtain ⟨p1, p2⟩ := pickMsgs_spec (fun m => decide (m.sender = r)) (withPlaces all1 ps qs)
  obtain ⟨q1, q2⟩ := pickMsgs_spec (fun m => decide (m.receiver = r)) (withPlaces all1 ps qs)
  refine ⟨_, a3, hstrip, ?_, ?_, ?_, ?_, ?_⟩
  · exact ⟨p1.len, p1.sorted, p1.get, fun i m hm => by rw [p1.mem i m hm]; simp⟩
  · simp only
    rw [p2]
    have e : (withPlaces all1 ps qs).map CMsg.core = msgs.flatten := by
      rw [← h1, ← hstrip, List.map_map, hstrip]; rfl
    have := flatten_filter_own msgs 0 r (fun r l hl m hm => by rw [Nat.zero_add]; exact h.own r l hl m hm) mine hr
    rw [Nat.zero_add, ← e, List.filter_map] at this
    exact this
  · exact ⟨q1.len, q1.sorted, q1.get, fun i m hm => by rw [q1.mem i m hm]; simp⟩
  · simp only
    rw [p2]
    exact placed_of_side (fun m => decide (m.sender = r)) CMsg.offSend mx h.lim all1 _ ps s hsz a1 (fun i x hx => by
      obtain ⟨m, p, q, e1, e2, e3, rfl⟩ := withPlaces_inv all1 ps qs b2 c2 i x hx
      exact ⟨m, p, e1, e2, rfl, rfl, rfl⟩) hlen
  · simp only
    rw [q2]
    exact placed_of_side (fun m => decide (m.receiver = r)) CMsg.offRecv mx h.lim all1 _ qs t hsz a2 (fun i x hx => by
      obtain ⟨m, p, q, e1, e2, e3, rfl⟩ := withPlaces_inv all1 ps qs b2 c2 i x hx
      exact ⟨m, q, e1, e3, rfl, rfl, rfl⟩) hlen

/-- **C24, empty messages.** If any rank announces an empty message every rank throws. -/
theorem C24_empty_message_throws (mx : Nat) (msgs : List (List CMsgIn)) (hown : ∀ (r : Nat) l, msgs[r]? = some l → ∀ m ∈ l, m.sender = r)
    (hc : msgs.flatten.length < 2 ^ 31) (h0 : ∃ m ∈ msgs.flatten, m.size = 0) (r : Nat) : buildTable msgs mx r = .throws := by
  unfold buildTable
  rw [fetchGlobal_ok msgs hown hc]
  simp only [Res.bind]
  rw [decodeAll_zero _ h0]

/-- **C24, foreign messages.** A rank announcing a message it is not the sender of throws. -/
theorem C24_foreign_message_throws (mx : Nat) (msgs : List (List CMsgIn)) (h : ∃ (r : Nat) (l : List CMsgIn), msgs[r]? = some l ∧ ∃ m ∈ l, m.sender ≠ r) (r : Nat) :
    buildTable msgs mx r = .throws := by
  have hloc : ∀ (k : Nat) (l : List CMsgIn), (∃ m ∈ l, m.sender ≠ k) → fetchLocal k l = .throws := by
    intro k l
    induction l with
    | nil => rintro ⟨m, hm, -⟩; simp at hm
    | cons a l ih =>
      rintro ⟨m, hm, hs⟩
      simp only [fetchLocal]
      by_cases ha : a.sender = k
      · rw [if_neg (by simp [ha])]
        rcases List.mem_cons.1 hm with rfl | hm
        · exact absurd ha hs
        · rw [ih ⟨m, hm, hs⟩]; rfl
      · rw [if_pos ha]
  have hlocok : ∀ (k : Nat) (l : List CMsgIn), fetchLocal k l = .throws ∨ ∃ a, fetchLocal k l = .ok a := by
    intro k l
    induction l with
    | nil => exact Or.inr ⟨_, rfl⟩
    | cons a l ih =>
      simp only [fetchLocal]
      split
      · exact Or.inl rfl
      · rcases ih with h | ⟨b, h⟩ <;> rw [h]
        · exact Or.inl rfl
        · exact Or.inr ⟨_, rfl⟩
  have key : ∀ (msgs : List (List CMsgIn)) (k : Nat), (∃ (r : Nat) (l : List CMsgIn), msgs[r]? = some l ∧ ∃ m ∈ l, m.sender ≠ k + r) → fetchLocals k msgs = .throws := by
    intro msgs
    induction msgs with
    | nil => rintro k ⟨r, l, hl, -⟩; simp at hl
    | cons a msgs ih =>
      rintro k ⟨r, l, hl, m, hm, hs⟩
      simp only [fetchLocals]
      rcases hlocok k a with hh | ⟨b, hh⟩
      · rw [hh]; rfl
      · rw [hh]
        cases r with
        | zero =>
          simp only [List.getElem?_cons_zero, Option.some.injEq] at hl
          subst hl
          rw [hloc k a ⟨m, hm, by simpa using hs⟩] at hh
          cases hh
        | succ r =>
          simp only [Res.bind]
          rw [ih (k + 1) ⟨r, l, by simpa using hl, m, hm, by omega⟩]
  unfold buildTable fetchGlobal
  obtain ⟨r', l, hl, m, hm, hs⟩ := h
  rw [key msgs 0 ⟨r', l, hl, m, hm, by omega⟩]
  rfl

def exMsgs : List (List CMsgIn) := [[⟨5, 0, 1⟩, ⟨3, 0, 2⟩, ⟨4, 0, 0⟩], [], [⟨6, 2, 1⟩, ⟨2, 2, 0⟩]]

example : MsgsOk 9 exMsgs := by
  refine ⟨by decide, by decide, by decide, ?_, by decide, by decide⟩
  intro r l hl m hm
  have hr : r < 3 := (List.getElem?_eq_some_iff.1 hl).1
  have h : ∀ r < 3, ∀ m ∈ (exMsgs[r]?).getD [], m.sender = r := by decide
  exact h r hr m (by rw [hl]; exact hm)

example : buildTable exMsgs 9 1 = .ok
    ⟨[], [⟨5, 0, 1, some 0, none, some (0, 0)⟩, ⟨3, 0, 2, some 1, none, none⟩, ⟨4, 0, 0, some 2, none, none⟩, ⟨6, 2, 1, some 0, none, some (1, 0)⟩,
      ⟨2, 2, 0, some 1, none, none⟩],
     [⟨5, 0, 1, some 0, none, some (0, 0)⟩, ⟨6, 2, 1, some 0, none, some (1, 0)⟩], [], [0, 3], [], [5, 6]⟩ := by decide +kernel

/-! ### The exchange -/

/-- The bytes of a placed message in a list of buffers. -/
def rangeOf {B : Type} (bufs : List (List B)) (p : Nat × Nat) (n : Nat) : Option (List B) :=
  match bufs[p.1]? with
  | none => none
  | some b => if p.2 + n ≤ b.length then some ((b.drop p.2).take n) else none

theorem bufSlice_range {B : Type} (bufs : List (List B)) (p : Nat × Nat) (n : Nat) (x : List B) :
    bufSlice bufs p.1 p.2 n = .ok x ↔ rangeOf bufs p n = some x := by
  unfold bufSlice rangeOf
  cases bufs[p.1]? with
  | none => simp
  | some b => simp only; split <;> simp

theorem rangeOf_length {B : Type} (bufs : List (List B)) (p : Nat × Nat) (n : Nat) (x : List B) (h : rangeOf bufs p n = some x) : x.length = n := by
  unfold rangeOf at h
  cases hb : bufs[p.1]? with
  | none => rw [hb] at h; simp at h
  | some b =>
    rw [hb] at h
    simp only at h
    split at h
    · simp only [Option.some.injEq] at h
      rw [← h, List.length_take, List.length_drop]; omega
    · simp at h

theorem rangeOf_exists {B : Type} (sizes : List Nat) (bufs : List (List B)) (hlen : sizes.length = bufs.length)
    (hle : ∀ (i v : Nat) (b : List B), sizes[i]? = some v → bufs[i]? = some b → v ≤ b.length) (p : Nat × Nat) (n v : Nat) (h1 : sizes[p.1]? = some v) (h2 : p.2 + n ≤ v) :
    ∃ x, rangeOf bufs p n = some x := by
  have hl : p.1 < bufs.length := by rw [← hlen]; exact (List.getElem?_eq_some_iff.1 h1).1
  have hb := List.getElem?_eq_getElem hl
  have := hle p.1 v _ h1 hb
  unfold rangeOf
  rw [hb]
  simp only
  rw [if_pos (by omega)]
  exact ⟨_, rfl⟩

/-- Writing a block: its range reads back, disjoint ranges are unchanged. -/
theorem store_block {B : Type} (rb : List (List B)) (id off : Nat) (x : List B) (y : List B) (hr : rangeOf rb (id, off) x.length = some y) :
    ∃ b b', rb[id]? = some b ∧ blockWrite b off x = .ok b' ∧ (rb.set id b').map List.length = rb.map List.length ∧
      rangeOf (rb.set id b') (id, off) x.length = some x ∧
      ∀ (q : Nat × Nat) n, (q.1 ≠ id ∨ q.2 + n ≤ off ∨ off + x.length ≤ q.2) → rangeOf (rb.set id b') q n = rangeOf rb q n := by
  unfold rangeOf at hr
  cases hb : rb[id]? with
  | none => rw [hb] at hr; simp at hr
  | some b =>
    rw [hb] at hr
    simp only at hr
    by_cases hle : off + x.length ≤ b.length
    · have hidl : id < rb.length := (List.getElem?_eq_some_iff.1 hb).1
      have hw : blockWrite b off x = .ok (b.take off ++ x ++ b.drop (off + x.length)) := by unfold blockWrite; rw [if_pos hle]
      have hbl : (b.take off ++ x ++ b.drop (off + x.length)).length = b.length := by
        simp only [List.length_append, List.length_take, List.length_drop]; omega
      refine ⟨b, _, rfl, hw, ?_, ?_, ?_⟩
      · apply List.ext_getElem?
        intro i
        rw [List.getElem?_map, List.getElem?_map]
        by_cases hi : i = id
        · subst hi; rw [List.getElem?_set_self hidl, hb]; simp only [Option.map_some]; rw [hbl]
        · rw [List.getElem?_set_ne (fun e => hi e.symm)]
      · unfold rangeOf
        simp only [List.getElem?_set_self hidl]
        rw [if_pos (by rw [hbl]; exact hle)]
        congr 1
        have ht : (b.take off).length = off := by rw [List.length_take]; omega
        rw [List.append_assoc, List.drop_left' ht, List.take_left' rfl]
      · intro q n hq
        unfold rangeOf
        by_cases hi : q.1 = id
        · rw [hi, List.getElem?_set_self hidl, hb]
          simp only
          rw [hbl]
          by_cases hqn : q.2 + n ≤ b.length
          · rw [if_pos hqn, if_pos hqn]
            congr 1
            have ht : (b.take off).length = off := by rw [List.length_take]; omega
            apply List.ext_getElem?
            intro k
            by_cases hk : k < n
            · rw [List.getElem?_take_of_lt hk, List.getElem?_take_of_lt hk, List.getElem?_drop, List.getElem?_drop]
              rcases hq with hq | hq | hq
              · exact absurd hi hq
              · rw [List.append_assoc, List.getElem?_append_left (by omega), List.getElem?_take_of_lt (by omega)]
              · rw [List.getElem?_append_right (by simp only [List.length_append]; omega), List.getElem?_drop]
                congr 1
                simp only [List.length_append]
                omega
            · rw [List.getElem?_eq_none (by rw [List.length_take]; omega), List.getElem?_eq_none (by rw [List.length_take]; omega)]
          · rw [if_neg hqn, if_neg hqn]
        · rw [List.getElem?_set_ne (fun e => hi e.symm)]
    · rw [if_neg hle] at hr; simp at hr

theorem rangeOf_congr_some {B : Type} (rb rb' : List (List B)) (h : rb'.map List.length = rb.map List.length) (p : Nat × Nat) (n : Nat) (y : List B)
    (hy : rangeOf rb p n = some y) : ∃ y', rangeOf rb' p n = some y' := by
  unfold rangeOf at *
  have hl : ∀ i, (rb'[i]?).map List.length = (rb[i]?).map List.length := fun i => by
    rw [← List.getElem?_map, ← List.getElem?_map, h]
  have := hl p.1
  cases hb : rb[p.1]? with
  | none => rw [hb] at hy; simp at hy
  | some b =>
    rw [hb] at hy this
    cases hb' : rb'[p.1]? with
    | none => rw [hb'] at this; simp at this
    | some b' =>
      rw [hb'] at this
      simp only [Option.map_some, Option.some.injEq] at this
      simp only at hy ⊢
      split at hy
      · rw [if_pos (by omega)]; exact ⟨_, rfl⟩
      · simp at hy

/-- Storing all received payloads. -/
theorem xchStore_spec {B : Type} (r : Nat) (got : Nat → Option (List B)) (ms : List CMsg) (k : Nat) (rb : List (List B))
    (hin : ∀ m ∈ ms, m.receiver = r → ∃ p y, m.offRecv = some p ∧ rangeOf rb p m.size = some y)
    (hd : ms.Pairwise fun x y => x.receiver = r → y.receiver = r → ∀ p q, x.offRecv = some p → y.offRecv = some q →
      p.1 ≠ q.1 ∨ p.2 + x.size ≤ q.2 ∨ q.2 + y.size ≤ p.2)
    (hg : ∀ (i : Nat) m, ms[i]? = some m → m.receiver = r → ∃ x, got (k + i) = some x ∧ x.length = m.size) :
    ∃ rb', xchStore r got ms k rb = .ok rb' ∧ rb'.map List.length = rb.map List.length ∧
      (∀ (i : Nat) m p, ms[i]? = some m → m.receiver = r → m.offRecv = some p → rangeOf rb' p m.size = got (k + i)) ∧
      ∀ (q : Nat × Nat) n, (∀ m ∈ ms, m.receiver = r → ∀ p, m.offRecv = some p → q.1 ≠ p.1 ∨ q.2 + n ≤ p.2 ∨ p.2 + m.size ≤ q.2) →
        rangeOf rb' q n = rangeOf rb q n := by
  induction ms generalizing k rb with
  | nil => exact ⟨rb, rfl, rfl, by simp, fun _ _ _ => rfl⟩
  | cons m ms ih =>
    obtain ⟨hd1, hd2⟩ := List.pairwise_cons.1 hd
    by_cases hm : m.receiver = r
    · obtain ⟨p, y, hp, hy⟩ := hin m List.mem_cons_self hm
      obtain ⟨x, hx, hxl⟩ := hg 0 m rfl hm
      rw [Nat.add_zero] at hx
      rw [← hxl] at hy
      obtain ⟨b, b', s1, s2, s3, s4, s5⟩ := store_block rb p.1 p.2 x y hy
      obtain ⟨rb', i1, i2, i3, i4⟩ := ih (k + 1) (rb.set p.1 b')
        (fun m' hm' hr' => by
          obtain ⟨p', y', e1, e2⟩ := hin m' (List.mem_cons_of_mem _ hm') hr'
          obtain ⟨y'', e3⟩ := rangeOf_congr_some _ _ s3 p' m'.size y' e2
          exact ⟨p', y'', e1, e3⟩) hd2
        (fun i m' hm' hr' => by
          obtain ⟨x', e1, e2⟩ := hg (i + 1) m' (by simpa using hm') hr'
          exact ⟨x', by rw [show k + 1 + i = k + (i + 1) by omega]; exact e1, e2⟩)
      refine ⟨rb', ?_, by rw [i2, s3], ?_, ?_⟩
      · simp only [xchStore, hm, if_true, hp, hx, s1, s2, Res.bind]
        exact i1
      · intro i m' p' hm' hr' hp'
        cases i with
        | zero =>
          simp only [List.getElem?_cons_zero, Option.some.injEq] at hm'
          subst hm'
          rw [hp] at hp'
          cases hp'
          rw [i4 p m.size (fun m2 hm2 hr2 p2 hp2 => hd1 m2 hm2 hm hr2 p p2 hp hp2), Nat.add_zero, hx, ← hxl]
          exact s4
        | succ i =>
          have := i3 i m' p' (by simpa using hm') hr' hp'
          rw [this, show k + 1 + i = k + (i + 1) by omega]
      · intro q n hq
        rw [i4 q n (fun m2 hm2 hr2 p2 hp2 => hq m2 (List.mem_cons_of_mem _ hm2) hr2 p2 hp2)]
        refine s5 q n ?_
        rw [hxl]
        exact hq m List.mem_cons_self hm p hp
    · obtain ⟨rb', i1, i2, i3, i4⟩ := ih (k + 1) rb (fun m' hm' hr' => hin m' (List.mem_cons_of_mem _ hm') hr') hd2
        (fun i m' hm' hr' => by
          obtain ⟨x', e1, e2⟩ := hg (i + 1) m' (by simpa using hm') hr'
          exact ⟨x', by rw [show k + 1 + i = k + (i + 1) by omega]; exact e1, e2⟩)
      refine ⟨rb', ?_, i2, ?_, fun q n hq => i4 q n (fun m2 hm2 hr2 p2 hp2 => hq m2 (List.mem_cons_of_mem _ hm2) hr2 p2 hp2)⟩
      · simp only [xchStore, hm, if_false]
        exact i1
      · intro i m' p' hm' hr' hp'
        cases i with
        | zero =>
          simp only [List.getElem?_cons_zero, Option.some.injEq] at hm'
          subst hm'
          exact absurd hr' hm
        | succ i =>
          have := i3 i m' p' (by simpa using hm') hr' hp'
          rw [this, show k + 1 + i = k + (i + 1) by omega]

/-- What a rank posts. -/
theorem xchProg_spec {B : Type} (r : Nat) (sb rb : List (List B)) (ms : List CMsg)
    (h : ∀ m ∈ ms, m.size < 2 ^ 31 ∧ (∃ t, m.tag = some t) ∧ (m.sender = r → ∃ p y, m.offSend = some p ∧ rangeOf sb p m.size = some y) ∧
      (m.receiver = r → ∃ p y, m.offRecv = some p ∧ rangeOf rb p m.size = some y)) :
    ∃ l, xchProg r sb rb ms = .ok l ∧ l.length = ms.length ∧
      ∀ (i : Nat) m t, ms[i]? = some m → m.tag = some t → ∃ it, l[i]? = some it ∧
        (∀ p y, m.sender = r → m.offSend = some p → rangeOf sb p m.size = some y → it.send = some ⟨m.receiver, t, y⟩) ∧
        (m.sender ≠ r → it.send = none) ∧
        (m.receiver = r → it.recv = some ⟨m.sender, t⟩) ∧ (m.receiver ≠ r → it.recv = none) := by
  induction ms with
  | nil => exact ⟨[], rfl, rfl, by simp⟩
  | cons m ms ih =>
    obtain ⟨l, i1, i2, i3⟩ := ih (fun x hx => h x (List.mem_cons_of_mem _ hx))
    obtain ⟨hsz, ⟨t, ht⟩, hs, hr⟩ := h m List.mem_cons_self
    obtain ⟨so, e1, e2, e3⟩ : ∃ so, xchSend r sb m = .ok so ∧ (∀ p y, m.sender = r → m.offSend = some p → rangeOf sb p m.size = some y →
        so = some ⟨m.receiver, t, y⟩) ∧ (m.sender ≠ r → so = none) := by
      unfold xchSend
      by_cases hm : m.sender = r
      · obtain ⟨p, y, hp, hy⟩ := hs hm
        rw [if_pos hm]
        obtain ⟨p1, p2⟩ := p
        simp only [hp, ht]
        rw [(bufSlice_range sb (p1, p2) m.size y).2 hy]
        simp only [Res.bind]
        rw [if_neg (by omega)]
        refine ⟨_, rfl, fun p' y' _ hp' hy' => ?_, fun h => absurd hm h⟩
        cases hp'
        rw [hy] at hy'
        cases hy'
        rfl
      · rw [if_neg hm]
        exact ⟨none, rfl, fun p y h => absurd h hm, fun _ => rfl⟩
    obtain ⟨ro, f1, f2, f3⟩ : ∃ ro, xchRecv r rb m = .ok ro ∧ (m.receiver = r → ro = some ⟨m.sender, t⟩) ∧ (m.receiver ≠ r → ro = none) := by
      unfold xchRecv
      by_cases hm : m.receiver = r
      · obtain ⟨p, y, hp, hy⟩ := hr hm
        rw [if_pos hm]
        obtain ⟨p1, p2⟩ := p
        simp only [hp, ht]
        rw [(bufSlice_range rb (p1, p2) m.size y).2 hy]
        simp only [Res.bind]
        rw [if_neg (by omega)]
        exact ⟨_, rfl, fun _ => rfl, fun h => absurd hm h⟩
      · rw [if_neg hm]
        exact ⟨none, rfl, fun h => absurd h hm, fun _ => rfl⟩
    refine ⟨⟨so, ro⟩ :: l, ?_, by simp [i2], ?_⟩
    · simp only [xchProg, e1, f1, i1, Res.bind]
    · intro i x t' hx ht'
      cases i with
      | zero =>
        simp only [List.getElem?_cons_zero, Option.some.injEq] at hx
        subst hx
        rw [ht] at ht'
        cases ht'
        exact ⟨⟨so, ro⟩, rfl, e2, e3, f2, f3⟩
      | succ i =>
        obtain ⟨it, g⟩ := i3 i x t' (by simpa using hx) ht'
        exact ⟨it, by simpa using g.1, g.2⟩

/-- Buffers passed with a table: one per announced size, large enough. -/
def BufsFor {B : Type} (sizes : List Nat) (bufs : List (List B)) : Prop :=
  bufs.length = sizes.length ∧ ∀ (i v : Nat) (b : List B), sizes[i]? = some v → bufs[i]? = some b → v ≤ b.length

/-- Rank `r`'s iteration `i` given the posts of all ranks. -/
def xprogOf {B : Type} (posts : Nat → List (XIter (List B))) : Nat → Nat → XIter (List B) := fun r i => (posts r).getD i ⟨none, none⟩

theorem zip_any_false {B : Type} (sizes : List Nat) (bufs : List (List B)) (h : BufsFor sizes bufs) :
    (List.zipWith (fun s (b : List B) => decide (s > b.length)) sizes bufs).any id = false := by
  rw [List.any_eq_false]
  intro x hx
  obtain ⟨i, hi⟩ := List.getElem?_of_mem hx
  rw [List.getElem?_zipWith] at hi
  cases h1 : sizes[i]? with
  | none => rw [h1] at hi; simp at hi
  | some v =>
    cases h2 : bufs[i]? with
    | none => rw [h1, h2] at hi; simp at hi
    | some b =>
      rw [h1, h2] at hi
      simp only [Option.some.injEq] at hi
      have := h.2 i v b h1 h2
      rw [← hi]
      simp; omega

/-- **C24, exchange.** With the tables of C24 (messages below 2^31 bytes) and buffers of the announced sizes on every rank: every rank passes the
checks; with any positive limit on the requests in flight no execution blocks, even if MPI buffers nothing, and every execution ends; and in every
final state each rank holds, in the range of its receive buffers the table gives for a message, exactly the bytes of the range of the sender's
send buffers the sender's table gives for it; nothing outside these ranges changed. -/
theorem C24_exchange {B : Type} (mx : Nat) (msgs : List (List CMsgIn)) (h : MsgsOk mx msgs) (h31 : mx < 2 ^ 31) (lim : Nat) (hlim : 0 < lim) (buf : Bool) :
    ∃ tab : Nat → CommTable, (∀ r < msgs.length, buildTable msgs mx r = .ok (tab r)) ∧
    ∀ (sb rb : Nat → List (List B)), (∀ r < msgs.length, BufsFor (tab r).sendSizes (sb r) ∧ BufsFor (tab r).recvSizes (rb r)) →
    ∃ posts : Nat → List (XIter (List B)), (∀ r < msgs.length, sparseExchangePosts r (tab r) (sb r) (rb r) = .ok (posts r)) ∧
      (∀ k s, XRun msgs.length msgs.flatten.length lim buf (xprogOf posts) k s →
        (s.Final msgs.length msgs.flatten.length (xprogOf posts) ∨ ∃ s', XStep msgs.length msgs.flatten.length lim buf (xprogOf posts) s s') ∧
        k ≤ msgs.length * (3 * msgs.flatten.length)) ∧
      ∀ k s, XRun msgs.length msgs.flatten.length lim buf (xprogOf posts) k s → s.Final msgs.length msgs.flatten.length (xprogOf posts) →
        ∀ r < msgs.length, ∃ rb', xchStore r (s.got r) (tab r).all 0 (rb r) = .ok rb' ∧
          rb'.map List.length = (rb r).map List.length ∧
          (∀ (i : Nat) m, (tab r).all[i]? = some m → m.receiver = r → ∃ m' p q x, (tab m.sender).all[i]? = some m' ∧ m'.core = m.core ∧
            m.offRecv = some p ∧ m'.offSend = some q ∧ rangeOf (sb m.sender) q m.size = some x ∧ rangeOf rb' p m.size = some x) ∧
          ∀ (q : Nat × Nat) n, (∀ m ∈ (tab r).recv, ∀ p, m.offRecv = some p → q.1 ≠ p.1 ∨ q.2 + n ≤ p.2 ∨ p.2 + m.size ≤ q.2) →
            rangeOf rb' q n = rangeOf (rb r) q n := by
  obtain ⟨all, h1, h2, h3, h4⟩ := C24_table mx msgs h
  have hT : ∀ r, ∃ t, r < msgs.length → (buildTable msgs mx r = .ok t ∧ t.all.map CMsg.strip = all ∧
        t.send = t.all.filter (fun m => decide (m.sender = r)) ∧ t.recv = t.all.filter (fun m => decide (m.receiver = r)) ∧
        Placed mx t.sendSizes (t.send.map fun m => (m.size, m.offSend)) ∧
        Placed mx t.recvSizes (t.recv.map fun m => (m.size, m.offRecv))) := by
    intro r
    by_cases hr : r < msgs.length
    · obtain ⟨t, a1, a2, a3, a4, a5, a6, a7⟩ := h4 r _ (List.getElem?_eq_getElem hr)
      refine ⟨t, fun _ => ⟨a1, a2, ?_, ?_, a6, a7⟩⟩
      · obtain ⟨all1', _, _, _, _, h5⟩ := table_spec mx msgs h
        obtain ⟨ps, qs, s, t', -, -, b3⟩ := h5 r hr
        rw [b3] at a1
        cases a1
        exact (pickMsgs_spec _ _).2
      · obtain ⟨all1', _, _, _, _, h5⟩ := table_spec mx msgs h
        obtain ⟨ps, qs, s, t', -, -, b3⟩ := h5 r hr
        rw [b3] at a1
        cases a1
        exact (pickMsgs_spec _ _).2
    · exact ⟨⟨[], [], [], [], [], [], []⟩, fun hh => absurd hh hr⟩
  choose tab htab using hT
  refine ⟨tab, fun r hr => (htab r hr).1, fun sb rb hbufs => ?_⟩
  have hlenall : all.length = msgs.flatten.length := by rw [← h1, List.length_map]
  have hget : ∀ r < msgs.length, ∀ (i : Nat) m, (tab r).all[i]? = some m → all[i]? = some m.strip := by
    intro r hr i m hm
    rw [← (htab r hr).2.1, List.getElem?_map, hm]; rfl
  have hgetr : ∀ r < msgs.length, ∀ (i : Nat) m, all[i]? = some m → ∃ m', (tab r).all[i]? = some m' ∧ m'.strip = m := by
    intro r hr i m hm
    rw [← (htab r hr).2.1, List.getElem?_map] at hm
    cases hx : (tab r).all[i]? with
    | none => rw [hx] at hm; simp at hm
    | some x => rw [hx] at hm; exact ⟨x, rfl, by simpa using hm⟩
  have hcore : ∀ m ∈ all, m.sender < msgs.length ∧ m.receiver < msgs.length ∧ m.size ≤ mx := by
    intro m hm
    have : m.core ∈ msgs.flatten := by rw [← h1]; exact List.mem_map_of_mem hm
    obtain ⟨l, hl, hml⟩ := List.mem_flatten.1 this
    obtain ⟨j, hj⟩ := List.getElem?_of_mem hl
    have e := h.own j l hj _ hml
    have hjl := (List.getElem?_eq_some_iff.1 hj).1
    have e2 := h.recv l hl _ hml
    have e3 := (h.size l hl _ hml).2
    simp only [CMsg.core] at e e2 e3
    exact ⟨by omega, e2, e3⟩
  have hsendp : ∀ r < msgs.length, ∀ m ∈ (tab r).all, m.sender = r → ∃ p y, m.offSend = some p ∧ rangeOf (sb r) p m.size = some y := by
    intro r hr m hm hs
    obtain ⟨a1, a2, a3, a4, a5, a6⟩ := htab r hr
    obtain ⟨id, off, v, c1, c2, c3⟩ := a5.inside (m.size, m.offSend) (List.mem_map.2 ⟨m, by rw [a3]; exact List.mem_filter.2 ⟨hm, by simpa using hs⟩, rfl⟩)
    obtain ⟨y, hy⟩ := rangeOf_exists (tab r).sendSizes (sb r) (hbufs r hr).1.1.symm (hbufs r hr).1.2 (id, off) m.size v c2 c3
    exact ⟨(id, off), y, c1, hy⟩
  have hrecvp : ∀ r < msgs.length, ∀ m ∈ (tab r).all, m.receiver = r → ∃ p y, m.offRecv = some p ∧ rangeOf (rb r) p m.size = some y := by
    intro r hr m hm hs
    obtain ⟨a1, a2, a3, a4, a5, a6⟩ := htab r hr
    obtain ⟨id, off, v, c1, c2, c3⟩ := a6.inside (m.size, m.offRecv) (List.mem_map.2 ⟨m, by rw [a4]; exact List.mem_filter.2 ⟨hm, by simpa using hs⟩, rfl⟩)
    obtain ⟨y, hy⟩ := rangeOf_exists (tab r).recvSizes (rb r) (hbufs r hr).2.1.symm (hbufs r hr).2.2 (id, off) m.size v c2 c3
    exact ⟨(id, off), y, c1, hy⟩
  have hP : ∀ r, ∃ l : List (XIter (List B)), r < msgs.length → (xchProg r (sb r) (rb r) (tab r).all = .ok l ∧ l.length = (tab r).all.length ∧
      ∀ (i : Nat) m t, (tab r).all[i]? = some m → m.tag = some t → ∃ it, l[i]? = some it ∧
        (∀ p y, m.sender = r → m.offSend = some p → rangeOf (sb r) p m.size = some y → it.send = some ⟨m.receiver, t, y⟩) ∧
        (m.sender ≠ r → it.send = none) ∧
        (m.receiver = r → it.recv = some ⟨m.sender, t⟩) ∧ (m.receiver ≠ r → it.recv = none)) := by
    intro r
    by_cases hr : r < msgs.length
    · obtain ⟨l, hl⟩ := xchProg_spec r (sb r) (rb r) (tab r).all (fun m hm => by
        obtain ⟨i, hi⟩ := List.getElem?_of_mem hm
        have hg := List.mem_of_getElem? (hget r hr i m hi)
        have e1 := (hcore _ hg).2.2
        have e2 := Option.isSome_iff_exists.1 (h2 _ hg)
        simp only [CMsg.strip] at e1 e2
        exact ⟨by omega, e2, hsendp r hr m hm, hrecvp r hr m hm⟩)
      exact ⟨l, fun _ => hl⟩
    · exact ⟨[], fun hh => absurd hh hr⟩
  choose posts hposts using hP
  -- iterations
  have hiter : ∀ r < msgs.length, ∀ (i : Nat) m, (tab r).all[i]? = some m → ∀ t, m.tag = some t →
      (∀ p y, m.sender = r → m.offSend = some p → rangeOf (sb r) p m.size = some y → (xprogOf posts r i).send = some ⟨m.receiver, t, y⟩) ∧
      (m.sender ≠ r → (xprogOf posts r i).send = none) ∧
      (m.receiver = r → (xprogOf posts r i).recv = some ⟨m.sender, t⟩) ∧ (m.receiver ≠ r → (xprogOf posts r i).recv = none) := by
    intro r hr i m hm t ht
    obtain ⟨it, e1, e2⟩ := (hposts r hr).2.2 i m t hm ht
    have : xprogOf posts r i = it := by unfold xprogOf; rw [List.getD_eq_getElem?_getD, e1]; rfl
    rw [this]; exact e2
  have htag : ∀ (i : Nat) m, all[i]? = some m → ∃ t, m.tag = some t := fun i m hm => Option.isSome_iff_exists.1 (h2 m (List.mem_of_getElem? hm))
  have hallget : ∀ i < msgs.flatten.length, ∃ m, all[i]? = some m := fun i hi => ⟨_, List.getElem?_eq_getElem (by omega)⟩
  -- description of the sends and receives
  have hsendd : ∀ r < msgs.length, ∀ i < msgs.flatten.length, ∀ x, (xprogOf posts r i).send = some x →
      ∃ m, all[i]? = some m ∧ m.sender = r ∧ m.receiver = x.dst ∧ m.tag = some x.tag := by
    intro r hr i hi x hx
    obtain ⟨m, hm⟩ := hallget i hi
    obtain ⟨t, ht⟩ := htag i m hm
    obtain ⟨m', hm', hst⟩ := hgetr r hr i m hm
    have ht' : m'.tag = some t := by rw [← hst] at ht; exact ht
    obtain ⟨d1, d2, d3, d4⟩ := hiter r hr i m' hm' t ht'
    by_cases hs : m'.sender = r
    · obtain ⟨p, y, hp, hy⟩ := hsendp r hr m' (List.mem_of_getElem? hm') hs
      rw [d1 p y hs hp hy] at hx
      cases hx
      refine ⟨m, hm, ?_, ?_, ht⟩
      · rw [← hst]; exact hs
      · rw [← hst]; rfl
    · rw [d2 hs] at hx; cases hx
  have hrecvd : ∀ r < msgs.length, ∀ i < msgs.flatten.length, ∀ x, (xprogOf posts r i).recv = some x →
      ∃ m, all[i]? = some m ∧ m.receiver = r ∧ m.sender = x.src ∧ m.tag = some x.tag := by
    intro r hr i hi x hx
    obtain ⟨m, hm⟩ := hallget i hi
    obtain ⟨t, ht⟩ := htag i m hm
    obtain ⟨m', hm', hst⟩ := hgetr r hr i m hm
    have ht' : m'.tag = some t := by rw [← hst] at ht; exact ht
    obtain ⟨d1, d2, d3, d4⟩ := hiter r hr i m' hm' t ht'
    by_cases hs : m'.receiver = r
    · rw [d3 hs] at hx
      cases hx
      refine ⟨m, hm, ?_, ?_, ht⟩
      · rw [← hst]; exact hs
      · rw [← hst]; rfl
    · rw [d4 hs] at hx; cases hx
  have hsendm : ∀ (i : Nat) m, all[i]? = some m → ∀ t, m.tag = some t → ∃ m' p y, (tab m.sender).all[i]? = some m' ∧ m'.strip = m ∧ m'.offSend = some p ∧
      rangeOf (sb m.sender) p m.size = some y ∧ (xprogOf posts m.sender i).send = some ⟨m.receiver, t, y⟩ := by
    intro i m hm t ht
    have hs := (hcore m (List.mem_of_getElem? hm)).1
    obtain ⟨m', hm', hst⟩ := hgetr m.sender hs i m hm
    have e1 : m'.sender = m.sender := by rw [← hst]; rfl
    have e2 : m'.receiver = m.receiver := by rw [← hst]; rfl
    have e3 : m'.size = m.size := by rw [← hst]; rfl
    obtain ⟨p, y, hp, hy⟩ := hsendp m.sender hs m' (List.mem_of_getElem? hm') e1
    have ht' : m'.tag = some t := by rw [← hst] at ht; exact ht
    have := (hiter m.sender hs i m' hm' t ht').1 p y e1 hp hy
    rw [e2] at this
    rw [e3] at hy
    exact ⟨m', p, y, hm', hst, hp, hy, this⟩
  have hrecvm : ∀ (i : Nat) m, all[i]? = some m → ∀ t, m.tag = some t → (xprogOf posts m.receiver i).recv = some ⟨m.sender, t⟩ := by
    intro i m hm t ht
    have hs := (hcore m (List.mem_of_getElem? hm)).2.1
    obtain ⟨m', hm', hst⟩ := hgetr m.receiver hs i m hm
    have e1 : m'.sender = m.sender := by rw [← hst]; rfl
    have e2 : m'.receiver = m.receiver := by rw [← hst]; rfl
    have ht' : m'.tag = some t := by rw [← hst] at ht; exact ht
    have := (hiter m.receiver hs i m' hm' t ht').2.2.1 e2
    rw [e1] at this
    exact this
  have hM : XMatched msgs.length msgs.flatten.length (xprogOf posts) := by
    refine ⟨fun r hr i hi x hx => ?_, fun r hr i hi x hx => ?_, fun r hr i hi j hj x x' hx hx' hd ht => ?_⟩
    · obtain ⟨m, a1, a2, a3, a4⟩ := hsendd r hr i hi x hx
      have hs := (hcore m (List.mem_of_getElem? a1)).2.1
      rw [a3] at hs
      refine ⟨hs, ?_⟩
      have := hrecvm i m a1 x.tag a4
      rw [a3, a2] at this
      exact this
    · obtain ⟨m, a1, a2, a3, a4⟩ := hrecvd r hr i hi x hx
      have hs := (hcore m (List.mem_of_getElem? a1)).1
      rw [a3] at hs
      refine ⟨hs, ?_⟩
      obtain ⟨m', p, y, -, -, -, -, e⟩ := hsendm i m a1 x.tag a4
      rw [a2, a3] at e
      exact ⟨y, e⟩
    · obtain ⟨m, a1, a2, a3, a4⟩ := hsendd r hr i hi x hx
      obtain ⟨m', b1, b2, b3, b4⟩ := hsendd r hr j hj x' hx'
      by_contra hne
      rw [List.pairwise_iff_getElem] at h3
      obtain ⟨i1, i2⟩ := List.getElem?_eq_some_iff.1 a1
      obtain ⟨j1, j2⟩ := List.getElem?_eq_some_iff.1 b1
      rcases Nat.lt_or_gt_of_ne hne with hlt | hlt
      · refine h3 i j i1 j1 hlt ?_ ?_
        · rw [i2, j2, a2, b2]
        · rw [i2, j2, a4, b4, ht]
      · refine h3 j i j1 i1 hlt ?_ ?_
        · rw [i2, j2, a2, b2]
        · rw [i2, j2, a4, b4, ht]
  refine ⟨posts, fun r hr => ?_, fun k s hk => ⟨xnet_progress hM hlim hk, xnet_bound hM hk⟩, fun k s hk hF r hr => ?_⟩
  · unfold sparseExchangePosts
    rw [if_neg (by rw [(hbufs r hr).1.1]; simp), if_neg (by rw [(hbufs r hr).2.1]; simp), zip_any_false _ _ (hbufs r hr).1, zip_any_false _ _ (hbufs r hr).2]
    simp only [Bool.false_eq_true, if_false]
    exact (hposts r hr).1
  · obtain ⟨a1, a2, a3, a4, a5, a6⟩ := htab r hr
    -- got
    have hgot : ∀ (i : Nat) m, (tab r).all[i]? = some m → m.receiver = r → ∃ m' q x, (tab m.sender).all[i]? = some m' ∧ m'.core = m.core ∧
        m'.offSend = some q ∧ rangeOf (sb m.sender) q m.size = some x ∧ s.got r i = some x := by
      intro i m hm hr'
      have hm1 := hget r hr i m hm
      obtain ⟨t, ht⟩ := htag i _ hm1
      obtain ⟨m', p, y, e1, e2, e3, e4, e5⟩ := hsendm i _ hm1 t ht
      have hi : i < msgs.flatten.length := by rw [← hlenall]; exact (List.getElem?_eq_some_iff.1 hm1).1
      have hs : m.sender < msgs.length := (hcore _ (List.mem_of_getElem? hm1)).1
      refine ⟨m', p, y, e1, ?_, e3, e4, ?_⟩
      · have : m'.core = (m'.strip).core := rfl
        rw [this, e2]; rfl
      · have e5' : (xprogOf posts m.sender i).send = some ⟨r, t, y⟩ := by rw [← hr']; exact e5
        exact xnet_deliver hM hk hF m.sender r i t y hs hr hi e5'
    obtain ⟨rb', b1, b2, b3, b4⟩ := xchStore_spec r (s.got r) (tab r).all 0 (rb r) (hrecvp r hr) (by
        have hd := a6.disjoint
        rw [a4] at hd
        have hd' := (List.pairwise_map (f := fun m : CMsg => (m.size, m.offRecv))).1 hd
        rw [List.pairwise_filter] at hd'
        exact hd'.imp (fun {x y} hxy hx hy p q hp hq => by
          have := hxy (by simpa using hx) (by simpa using hy) p q hp hq
          exact this))
      (fun i m hm hr' => by
        obtain ⟨m', q, x, -, -, -, e1, e2⟩ := hgot i m hm hr'
        rw [Nat.zero_add]
        exact ⟨x, e2, rangeOf_length _ _ _ _ e1⟩)
    refine ⟨rb', b1, b2, fun i m hm hr' => ?_, fun q n hq => b4 q n (fun m hm hr' p hp => ?_)⟩
    · obtain ⟨p, y, hp, -⟩ := hrecvp r hr m (List.mem_of_getElem? hm) hr'
      obtain ⟨m', q, x, e0, e1, e2, e3, e4⟩ := hgot i m hm hr'
      refine ⟨m', p, q, x, e0, e1, hp, e2, e3, ?_⟩
      rw [b3 i m p hm hr' hp, Nat.zero_add, e4]
    · exact hq m (by rw [a4]; exact List.mem_filter.2 ⟨hm, by simpa using hr'⟩) p hp

example : BufsFor [5, 6] [[1, 2, 3, 4, 5], [6, 7, 8, 9, 10, 11, 12]] := by
  refine ⟨rfl, ?_⟩
  intro i v b h1 h2
  match i, h1, h2 with
  | 0, h1, h2 => cases h1; cases h2; decide
  | 1, h1, h2 => cases h1; cases h2; decide

example : (sparseExchangePosts 1 ⟨[], [⟨5, 0, 1, some 0, none, some (0, 0)⟩, ⟨3, 0, 2, some 1, none, none⟩], [⟨5, 0, 1, some 0, none, some (0, 0)⟩], [], [0], [], [5]⟩
    [] [[1, 2, 3, 4, 5]] : Res (List (XIter (List Nat)))) = .ok [⟨none, some ⟨0, 0⟩⟩, ⟨none, none⟩] := by rfl

end Shamrock
