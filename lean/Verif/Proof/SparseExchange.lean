import Verif.Model.SparseExchange
import Verif.Props.Collective
/-! Lemmas on sparse exchange tables. -/
namespace Shamrock

/-- What the callers pass: rank `r` describes its own messages; receivers exist; sizes are positive and at most the limit. -/
structure MsgsOk (mx : Nat) (msgs : List (List CMsgIn)) : Prop where
  ranks : msgs.length < 2 ^ 31
  count : msgs.flatten.length < 2 ^ 31
  lim : mx < 2 ^ 63
  own : ∀ (r : Nat) l, msgs[r]? = some l → ∀ m ∈ l, m.sender = r
  recv : ∀ l ∈ msgs, ∀ m ∈ l, m.receiver < msgs.length
  size : ∀ l ∈ msgs, ∀ m ∈ l, 0 < m.size ∧ m.size ≤ mx

theorem commUnpack_pack (a b : Nat) (ha : a < 2 ^ 32) (hb : b < 2 ^ 32) : commUnpack (commPack a b) = (a, b) := by
  unfold commUnpack commPack
  have h1 : (a * 2 ^ 32 % 2 ^ 64 + b) % 2 ^ 64 = a * 2 ^ 32 + b := by
    rw [Nat.mod_eq_of_lt (a := a * 2 ^ 32) (by omega), Nat.mod_eq_of_lt (by omega)]
  rw [h1]
  congr 1 <;> omega

def encMsg (m : CMsgIn) : Nat × Nat := (commPack m.sender m.receiver, m.size)
def rawMsg (m : CMsgIn) : CMsg := ⟨m.size, m.sender, m.receiver, none, none, none⟩
def CMsg.core (m : CMsg) : CMsgIn := ⟨m.size, m.sender, m.receiver⟩

theorem fetchLocal_ok (r : Nat) (l : List CMsgIn) (h : ∀ m ∈ l, m.sender = r) : fetchLocal r l = .ok (l.map encMsg) := by
  induction l with
  | nil => rfl
  | cons m l ih =>
    simp only [fetchLocal]
    rw [if_neg (by simp [h m List.mem_cons_self]), ih (fun x hx => h x (List.mem_cons_of_mem _ hx))]
    rfl

theorem fetchLocals_ok (k : Nat) (msgs : List (List CMsgIn)) (h : ∀ (r : Nat) l, msgs[r]? = some l → ∀ m ∈ l, m.sender = k + r) :
    fetchLocals k msgs = .ok (msgs.map (List.map encMsg)) := by
  induction msgs generalizing k with
  | nil => rfl
  | cons l msgs ih =>
    simp only [fetchLocals]
    rw [fetchLocal_ok k l (fun m hm => by have := h 0 l rfl m hm; omega),
      ih (k + 1) (fun r l' hl m hm => by have := h (r + 1) l' (by simpa using hl) m hm; omega)]
    rfl

theorem fetchGlobal_ok (msgs : List (List CMsgIn)) (hown : ∀ (r : Nat) l, msgs[r]? = some l → ∀ m ∈ l, m.sender = r)
    (hc : msgs.flatten.length < 2 ^ 31) : fetchGlobal msgs = .ok (msgs.flatten.map encMsg) := by
  unfold fetchGlobal
  rw [fetchLocals_ok 0 msgs (fun r l hl m hm => by rw [Nat.zero_add]; exact hown r l hl m hm)]
  simp only [Res.bind]
  have e : (msgs.map (List.map encMsg)).flatten = msgs.flatten.map encMsg := (List.map_flatten).symm
  rw [allgatherv_ok _ _ _ (by rw [e, List.length_map]; exact hc), e]

theorem decodeAll_ok (l : List CMsgIn) (h : ∀ m ∈ l, m.sender < 2 ^ 32 ∧ m.receiver < 2 ^ 32 ∧ 0 < m.size) :
    decodeAll (l.map encMsg) = .ok (l.map rawMsg) := by
  induction l with
  | nil => rfl
  | cons m l ih =>
    obtain ⟨h1, h2, h3⟩ := h m List.mem_cons_self
    simp only [List.map_cons, decodeAll, unpackMsg, encMsg, commUnpack_pack _ _ h1 h2]
    rw [if_neg (by omega)]
    have := ih (fun x hx => h x (List.mem_cons_of_mem _ hx))
    simp only [Res.bind]
    rw [this]
    rfl

theorem decodeAll_zero (l : List CMsgIn) (h : ∃ m ∈ l, m.size = 0) : decodeAll (l.map encMsg) = .throws := by
  induction l with
  | nil => simp at h
  | cons m l ih =>
    simp only [List.map_cons, decodeAll, unpackMsg, encMsg]
    by_cases hm : m.size = 0
    · rw [if_pos hm]; rfl
    · rw [if_neg hm]
      simp only [Res.bind]
      obtain ⟨x, hx, h0⟩ := h
      rcases List.mem_cons.1 hx with rfl | hx
      · exact absurd h0 hm
      · have := ih ⟨x, hx, h0⟩
        rw [this]

/-- Tags. -/
theorem computeTags_ok (ms : List CMsg) (tm : List Nat) (h : ∀ m ∈ ms, m.sender < tm.length) :
    ∃ l, computeTags ms tm = .ok l ∧ l.length = ms.length ∧
      (∀ (i : Nat) m, ms[i]? = some m → ∃ t, l[i]? = some { m with tag := some t } ∧ tm.getD m.sender 0 ≤ t) ∧
      l.Pairwise (fun a b => a.sender = b.sender → a.tag ≠ b.tag) := by
  induction ms generalizing tm with
  | nil => exact ⟨[], rfl, rfl, by simp, List.Pairwise.nil⟩
  | cons m ms ih =>
    have hs := h m List.mem_cons_self
    have hg : tm[m.sender]? = some tm[m.sender] := List.getElem?_eq_getElem hs
    obtain ⟨l, h1, h2, h3, h4⟩ := ih (tm.set m.sender (tm[m.sender] + 1)) (fun x hx => by
      rw [List.length_set]; exact h x (List.mem_cons_of_mem _ hx))
    refine ⟨{ m with tag := some tm[m.sender] } :: l, ?_, by simp [h2], ?_, ?_⟩
    · simp only [computeTags, hg, h1, Res.bind]
    · intro i x hx
      cases i with
      | zero =>
        simp only [List.getElem?_cons_zero, Option.some.injEq] at hx
        subst hx
        exact ⟨_, rfl, by rw [List.getD_eq_getElem?_getD, hg]; exact le_refl _⟩
      | succ i =>
        obtain ⟨t, a, b⟩ := h3 i x (by simpa using hx)
        refine ⟨t, by simpa using a, ?_⟩
        rw [List.getD_eq_getElem?_getD] at b ⊢
        by_cases he : x.sender = m.sender
        · rw [he, List.getElem?_set_self hs] at b
          rw [he, hg]
          simp only [Option.getD_some] at b ⊢
          omega
        · rw [List.getElem?_set_ne (fun e => he e.symm)] at b
          exact b
    · refine List.Pairwise.cons ?_ h4
      intro b hb hsend
      obtain ⟨j, hj⟩ := List.getElem?_of_mem hb
      have hjl : j < ms.length := by rw [← h2]; exact (List.getElem?_eq_some_iff.1 hj).1
      obtain ⟨t, a, c⟩ := h3 j _ (List.getElem?_eq_getElem hjl)
      rw [hj] at a
      cases a
      simp only at hsend
      rw [← hsend, List.getD_eq_getElem?_getD, List.getElem?_set_self hs] at c
      simp only [Option.getD_some] at c
      simp only [ne_eq, Option.some.injEq]
      omega

/-! ### Layout of one side -/

structure LayInv (mx : Nat) (s : LaySt) : Prop where
  st : (s.sizes = [] ∧ s.id = 0 ∧ s.off = 0) ∨ (s.id + 1 = s.sizes.length ∧ s.sizes[s.id]? = some s.off)
  le : ∀ v ∈ s.sizes, v ≤ mx

def LayLe (s : LaySt) (p : Nat × Nat) : Prop := s.id < p.1 ∨ (s.id = p.1 ∧ s.off ≤ p.2)

/-- `s'` extends `s`. -/
def LayExt (s s' : LaySt) : Prop := ∀ (k v : Nat), s.sizes[k]? = some v → ∃ v', s'.sizes[k]? = some v' ∧ v ≤ v'

theorem layOne_ok (mx size : Nat) (s : LaySt) (hmx : mx < 2 ^ 63) (h0 : 0 < size) (h1 : size ≤ mx) (h : LayInv mx s) :
    ∃ s' p, layOne mx size s = .ok (s', p) ∧ LayInv mx s' ∧ LayLe s p ∧ LayExt s s' ∧ s'.sizes.sum = s.sizes.sum + size ∧
      p.1 = s'.id ∧ p.2 + size = s'.off ∧ s'.sizes[s'.id]? = some s'.off := by
  have hoff : s.off ≤ mx := by
    rcases h.st with ⟨_, _, h⟩ | ⟨_, h2⟩
    · omega
    · exact h.le _ (List.mem_of_getElem? h2)
  have hadd : u64add s.off size = s.off + size := by unfold u64add; omega
  unfold layOne
  rw [if_neg (by omega)]
  -- sizes after the first check
  obtain ⟨sz, hsz, hlen, hget, hle, hsum, hext⟩ : ∃ sz, (if s.sizes.length = 0 then s.sizes ++ [0] else s.sizes) = sz ∧ s.id + 1 = sz.length ∧
      sz[s.id]? = some s.off ∧ (∀ v ∈ sz, v ≤ mx) ∧ sz.sum = s.sizes.sum ∧ (∀ (k v : Nat), s.sizes[k]? = some v → sz[k]? = some v) := by
    rcases h.st with ⟨a, b, c⟩ | ⟨a, b⟩
    · refine ⟨[0], by simp [a], by simp [b], by simp [b, c], by simp, by simp [a], by simp [a]⟩
    · refine ⟨s.sizes, by rw [if_neg (by omega)], a, b, h.le, rfl, fun k v hv => hv⟩
  simp only [hsz, hadd]
  by_cases hbig : s.off + size ≥ mx
  · rw [if_pos hbig]
    have hg : (sz ++ [0])[s.id + 1]? = some 0 := by
      rw [List.getElem?_append_right (by omega)]; simp [hlen]
    simp only [hg]
    have hu : u64add 0 size = size := by unfold u64add; omega
    rw [hu]
    have hset : (sz ++ [0]).set (s.id + 1) size = sz ++ [size] := by
      rw [hlen, List.set_append_right _ _ (le_refl _), Nat.sub_self]; rfl
    rw [hset]
    refine ⟨_, _, rfl, ⟨Or.inr ⟨by simp [hlen], ?_⟩, ?_⟩, Or.inl (Nat.lt_succ_self _), ?_, ?_, rfl, by simp, ?_⟩
    · simp only [hlen]; rw [List.getElem?_append_right (le_refl _), Nat.sub_self]; rfl
    · intro v hv
      rcases List.mem_append.1 hv with hv | hv
      · exact hle v hv
      · simp only [List.mem_singleton] at hv; omega
    · intro k v hv
      have := hext k v hv
      refine ⟨v, ?_, le_refl _⟩
      show (sz ++ [size])[k]? = some v
      rw [List.getElem?_append_left (List.getElem?_eq_some_iff.1 this).1]; exact this
    · show (sz ++ [size]).sum = _
      rw [List.sum_append, hsum]; simp
    · simp only [hlen]; rw [List.getElem?_append_right (le_refl _), Nat.sub_self]; rfl
  · rw [if_neg hbig]
    simp only [hget, hadd]
    have hidl : s.id < sz.length := by omega
    refine ⟨_, _, rfl, ⟨Or.inr ⟨by simp [hlen], ?_⟩, ?_⟩, Or.inr ⟨rfl, le_refl _⟩, ?_, ?_, rfl, rfl, ?_⟩
    · exact List.getElem?_set_self hidl
    · intro v hv
      rcases List.mem_or_eq_of_mem_set hv with hv | hv
      · exact hle v hv
      · omega
    · intro k v hv
      have hk := hext k v hv
      show ∃ v', (sz.set s.id (s.off + size))[k]? = some v' ∧ v ≤ v'
      by_cases he : k = s.id
      · subst he
        refine ⟨_, List.getElem?_set_self hidl, ?_⟩
        rw [hget] at hk; cases hk; omega
      · exact ⟨v, by rw [List.getElem?_set_ne (fun e => he e.symm)]; exact hk, le_refl _⟩
    · show (sz.set s.id (s.off + size)).sum = _
      have hd : sz = sz.take s.id ++ [s.off] := by
        have : sz[s.id] = s.off := by rw [List.getElem?_eq_getElem hidl] at hget; simpa using hget
        conv_lhs => rw [← List.take_append_drop s.id sz, List.drop_eq_getElem_cons hidl, this, List.drop_of_length_le (by omega)]
      have hset : sz.set s.id (s.off + size) = sz.take s.id ++ [s.off + size] := by
        conv_lhs => rw [hd]
        rw [List.set_append_right _ _ (by rw [List.length_take]; omega), List.length_take, Nat.min_eq_left (by omega), Nat.sub_self]; rfl
      have hs2 : (sz.take s.id).sum + s.off = s.sizes.sum := by
        rw [← hsum]; conv_rhs => rw [hd]
        rw [List.sum_append]; simp
      rw [hset, List.sum_append, List.sum_singleton]; omega
    · exact List.getElem?_set_self hidl

/-- One side of the layout loop. -/
def laySide (c : CMsg → Bool) (mx : Nat) : List CMsg → LaySt → Res (List (Option (Nat × Nat)) × LaySt)
  | [], s => .ok ([], s)
  | m :: ms, s => (layIf (c m) mx m.size s).bind fun (s, p) => (laySide c mx ms s).bind fun (l, s) => .ok (p :: l, s)

def withPlaces : List CMsg → List (Option (Nat × Nat)) → List (Option (Nat × Nat)) → List CMsg
  | m :: ms, p :: ps, q :: qs => { m with offSend := p, offRecv := q } :: withPlaces ms ps qs
  | _, _, _ => []

theorem layAll_eq (mx r : Nat) (ms : List CMsg) (s t s' t' : LaySt) (ps qs : List (Option (Nat × Nat)))
    (h1 : laySide (fun m => decide (m.sender = r)) mx ms s = .ok (ps, s')) (h2 : laySide (fun m => decide (m.receiver = r)) mx ms t = .ok (qs, t')) :
    layAll mx r ms s t = .ok (withPlaces ms ps qs, s', t') := by
  induction ms generalizing s t ps qs with
  | nil =>
    simp only [laySide, Res.ok.injEq, Prod.mk.injEq] at h1 h2
    obtain ⟨rfl, rfl⟩ := h1
    obtain ⟨rfl, rfl⟩ := h2
    rfl
  | cons m ms ih =>
    simp only [laySide] at h1 h2
    simp only [layAll]
    cases ha : layIf (decide (m.sender = r)) mx m.size s with
    | throws => rw [ha] at h1; simp [Res.bind] at h1
    | ub => rw [ha] at h1; simp [Res.bind] at h1
    | ok a =>
      cases hb : layIf (decide (m.receiver = r)) mx m.size t with
      | throws => rw [hb] at h2; simp [Res.bind] at h2
      | ub => rw [hb] at h2; simp [Res.bind] at h2
      | ok b =>
        rw [ha] at h1
        rw [hb] at h2
        simp only [Res.bind] at h1 h2 ⊢
        cases hc : laySide (fun m => decide (m.sender = r)) mx ms a.1 with
        | throws => rw [hc] at h1; simp at h1
        | ub => rw [hc] at h1; simp at h1
        | ok c =>
          cases hd : laySide (fun m => decide (m.receiver = r)) mx ms b.1 with
          | throws => rw [hd] at h2; simp at h2
          | ub => rw [hd] at h2; simp at h2
          | ok d =>
            rw [hc] at h1
            rw [hd] at h2
            simp only [Res.ok.injEq, Prod.mk.injEq] at h1 h2
            obtain ⟨rfl, rfl⟩ := h1
            obtain ⟨rfl, rfl⟩ := h2
            rw [ih a.1 b.1 c.1 d.1 hc hd]
            rfl

theorem LayLe.trans {s s' : LaySt} {p q : Nat × Nat} {size : Nat} (h1 : LayLe s p) (hp : p.1 = s'.id) (hp2 : p.2 + size = s'.off) (h2 : LayLe s' q) :
    LayLe s q := by
  unfold LayLe at *; omega

theorem laySide_ok (c : CMsg → Bool) (mx : Nat) (hmx : mx < 2 ^ 63) (ms : List CMsg) (h : ∀ m ∈ ms, c m = true → 0 < m.size ∧ m.size ≤ mx)
    (s : LaySt) (hs : LayInv mx s) :
    ∃ ps s', laySide c mx ms s = .ok (ps, s') ∧ ps.length = ms.length ∧ LayInv mx s' ∧ LayExt s s' ∧
      s'.sizes.sum = s.sizes.sum + ((ms.filter c).map (·.size)).sum ∧
      (∀ (i : Nat) m, ms[i]? = some m → c m = false → ps[i]? = some none) ∧
      (∀ (i : Nat) m, ms[i]? = some m → c m = true → ∃ id off v, ps[i]? = some (some (id, off)) ∧ LayLe s (id, off) ∧
        s'.sizes[id]? = some v ∧ off + m.size ≤ v) ∧
      (∀ (i j : Nat) m p q, i < j → ms[i]? = some m → ps[i]? = some (some p) → ps[j]? = some (some q) →
        p.1 < q.1 ∨ (p.1 = q.1 ∧ p.2 + m.size ≤ q.2)) := by
  induction ms generalizing s with
  | nil => exact ⟨[], s, rfl, rfl, hs, fun k v hv => ⟨v, hv, le_refl _⟩, by simp, by simp, by simp, by simp⟩
  | cons m ms ih =>
    have ihx := ih (fun x hx => h x (List.mem_cons_of_mem _ hx))
    cases hc : c m with
    | false =>
      obtain ⟨ps, s', a1, a2, a3, a4, a5, a6, a7, a8⟩ := ihx s hs
      refine ⟨none :: ps, s', ?_, by simp [a2], a3, a4, by simp [hc, a5], ?_, ?_, ?_⟩
      · simp only [laySide, layIf, hc, Bool.false_eq_true, if_false, Res.bind, a1]
      · intro i x hx hcx
        cases i with
        | zero => rfl
        | succ i => exact a6 i x (by simpa using hx) hcx
      · intro i x hx hcx
        cases i with
        | zero =>
          simp only [List.getElem?_cons_zero, Option.some.injEq] at hx
          subst hx; rw [hc] at hcx; cases hcx
        | succ i => exact a7 i x (by simpa using hx) hcx
      · intro i j x p q hij hx hp hq
        cases j with
        | zero => omega
        | succ j =>
          cases i with
          | zero => simp at hp
          | succ i => exact a8 i j x p q (by omega) (by simpa using hx) (by simpa using hp) (by simpa using hq)
    | true =>
      obtain ⟨h0, h1⟩ := h m List.mem_cons_self hc
      obtain ⟨s1, p1, b1, b2, b3, b4, b5, b6, b7, b8⟩ := layOne_ok mx m.size s hmx h0 h1 hs
      obtain ⟨ps, s', a1, a2, a3, a4, a5, a6, a7, a8⟩ := ihx s1 b2
      refine ⟨some p1 :: ps, s', ?_, by simp [a2], a3, ?_, ?_, ?_, ?_, ?_⟩
      · simp only [laySide, layIf, hc, if_true, Res.bind, b1, a1]
      · intro k v hv
        obtain ⟨v1, c1, c2⟩ := b4 k v hv
        obtain ⟨v2, d1, d2⟩ := a4 k v1 c1
        exact ⟨v2, d1, by omega⟩
      · rw [a5, b5, List.filter_cons_of_pos hc, List.map_cons, List.sum_cons]; omega
      · intro i x hx hcx
        cases i with
        | zero =>
          simp only [List.getElem?_cons_zero, Option.some.injEq] at hx
          subst hx; rw [hc] at hcx; cases hcx
        | succ i => exact a6 i x (by simpa using hx) hcx
      · intro i x hx hcx
        cases i with
        | zero =>
          simp only [List.getElem?_cons_zero, Option.some.injEq] at hx
          subst hx
          obtain ⟨v, e1, e2⟩ := a4 _ _ b8
          exact ⟨p1.1, p1.2, v, rfl, b3, by rw [b6]; exact e1, by omega⟩
        | succ i =>
          obtain ⟨id, off, v, e1, e2, e3, e4⟩ := a7 i x (by simpa using hx) hcx
          exact ⟨id, off, v, e1, LayLe.trans b3 b6 b7 e2, e3, e4⟩
      · intro i j x p q hij hx hp hq
        cases j with
        | zero => omega
        | succ j =>
          cases i with
          | zero =>
            simp only [List.getElem?_cons_zero, Option.some.injEq] at hx hp
            subst hx; subst hp
            have hq' : ps[j]? = some (some q) := by simpa using hq
            have hjl : j < ms.length := by rw [← a2]; exact (List.getElem?_eq_some_iff.1 hq').1
            have hm := List.getElem?_eq_getElem hjl
            cases hcm : c ms[j] with
            | false => rw [a6 j _ hm hcm] at hq'; simp at hq'
            | true =>
              obtain ⟨id, off, v, e1, e2, e3, e4⟩ := a7 j _ hm hcm
              rw [e1] at hq'
              simp only [Option.some.injEq] at hq'
              subst hq'
              unfold LayLe at e2
              simp only at e2 ⊢
              omega
          | succ i => exact a8 i j x p q (by omega) (by simpa using hx) (by simpa using hp) (by simpa using hq)

theorem laySide_throws (c : CMsg → Bool) (mx : Nat) (hmx : mx < 2 ^ 63) (ms : List CMsg) (h0 : ∀ m ∈ ms, 0 < m.size) (h : ∃ m ∈ ms, c m = true ∧ mx < m.size)
    (s : LaySt) (hs : LayInv mx s) : laySide c mx ms s = .throws := by
  induction ms generalizing s with
  | nil => simp at h
  | cons m ms ih =>
    obtain ⟨x, hx, hcx, hsx⟩ := h
    have h0' : ∀ m ∈ ms, 0 < m.size := fun y hy => h0 y (List.mem_cons_of_mem _ hy)
    simp only [laySide, layIf]
    cases hc : c m with
    | false =>
      simp only [Bool.false_eq_true, if_false, Res.bind]
      rcases List.mem_cons.1 hx with rfl | hx
      · rw [hc] at hcx; cases hcx
      · rw [ih h0' ⟨x, hx, hcx, hsx⟩ s hs]
    | true =>
      simp only [if_true]
      by_cases hbig : m.size > mx
      · simp only [layOne, hbig, if_true, Res.bind]
      · obtain ⟨s1, p1, b1, b2, -⟩ := layOne_ok mx m.size s hmx (h0 m List.mem_cons_self) (by omega) hs
        simp only [b1, Res.bind]
        rcases List.mem_cons.1 hx with rfl | hx
        · omega
        · rw [ih h0' ⟨x, hx, hcx, hsx⟩ s1 b2]

theorem layInv_init (mx : Nat) : LayInv mx ⟨[], 0, 0⟩ := ⟨Or.inl ⟨rfl, rfl, rfl⟩, by simp⟩

theorem withPlaces_get (ms : List CMsg) (ps qs : List (Option (Nat × Nat))) (h1 : ps.length = ms.length) (h2 : qs.length = ms.length) :
    (withPlaces ms ps qs).length = ms.length ∧
    ∀ (i : Nat) m p q, ms[i]? = some m → ps[i]? = some p → qs[i]? = some q → (withPlaces ms ps qs)[i]? = some { m with offSend := p, offRecv := q } := by
  induction ms generalizing ps qs with
  | nil => simp [withPlaces]
  | cons m ms ih =>
    cases ps with
    | nil => simp at h1
    | cons p ps =>
      cases qs with
      | nil => simp at h2
      | cons q qs =>
        obtain ⟨a, b⟩ := ih ps qs (by simpa using h1) (by simpa using h2)
        refine ⟨by simp [withPlaces, a], fun i m' p' q' hm hp hq => ?_⟩
        cases i with
        | zero =>
          simp only [List.getElem?_cons_zero, Option.some.injEq] at hm hp hq
          subst hm; subst hp; subst hq
          rfl
        | succ i => exact b i m' p' q' (by simpa using hm) (by simpa using hp) (by simpa using hq)

end Shamrock
