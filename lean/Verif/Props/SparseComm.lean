import Verif.Proof.SparseComm
import Verif.Props.SparseExchange
/-! C25: exchange of distributed data (`distributed_data_sparse_comm`, `serialize_sparse_comm`). -/
namespace Shamrock

/-! ### Oversize messages -/

theorem layIf_not_ub (c : Bool) (mx size : Nat) (s : LaySt) : layIf c mx size s ≠ .ub := by
  unfold layIf
  cases c with
  | false => simp
  | true =>
    simp only [if_true]
    unfold layOne
    split
    · simp [Res.bind]
    · simp only
      split <;> simp [Res.bind]

theorem layIf_big (mx size : Nat) (s : LaySt) (h : mx < size) : layIf true mx size s = .throws := by
  unfold layIf layOne
  simp only [if_true]
  rw [if_pos h]; rfl

theorem layAll_throws (mx r : Nat) (ms : List CMsg) : ∀ s t, (∃ m ∈ ms, (m.sender = r ∨ m.receiver = r) ∧ mx < m.size) → layAll mx r ms s t = .throws := by
  induction ms with
  | nil => rintro s t ⟨m, hm, -⟩; simp at hm
  | cons m ms ih =>
    rintro s t ⟨x, hx, hr, hb⟩
    simp only [layAll]
    cases ha : layIf (decide (m.sender = r)) mx m.size s with
    | throws => rfl
    | ub => exact absurd ha (layIf_not_ub _ _ _ _)
    | ok a =>
      simp only [Res.bind]
      cases hb' : layIf (decide (m.receiver = r)) mx m.size t with
      | throws => rfl
      | ub => exact absurd hb' (layIf_not_ub _ _ _ _)
      | ok b =>
        simp only
        rcases List.mem_cons.1 hx with rfl | hx
        · exfalso
          rcases hr with hr | hr
          · rw [decide_eq_true hr, layIf_big _ _ _ hb] at ha; cases ha
          · rw [decide_eq_true hr, layIf_big _ _ _ hb] at hb'; cases hb'
        · rw [ih a.1 b.1 ⟨x, hx, hr, hb⟩]

/-- **C24, oversize messages.** If some rank announces a message larger than the allocation limit, its sender and its receiver throw. -/
theorem C24_oversize_message_throws (mx : Nat) (msgs : List (List CMsgIn)) (hW : msgs.length < 2 ^ 31) (hown : ∀ (r : Nat) l, msgs[r]? = some l → ∀ m ∈ l, m.sender = r)
    (hrecv : ∀ l ∈ msgs, ∀ m ∈ l, m.receiver < msgs.length ∧ 0 < m.size ∧ m.size < 2 ^ 64) (hc : msgs.flatten.length < 2 ^ 31)
    (m : CMsgIn) (hm : m ∈ msgs.flatten) (hbig : mx < m.size) (r : Nat) (hr : m.sender = r ∨ m.receiver = r) : buildTable msgs mx r = .throws := by
  have hmem : ∀ m ∈ msgs.flatten, m.sender < msgs.length ∧ m.receiver < msgs.length ∧ 0 < m.size := by
    intro m hm
    obtain ⟨l, hl, hml⟩ := List.mem_flatten.1 hm
    obtain ⟨j, hj⟩ := List.getElem?_of_mem hl
    have := hown j l hj m hml
    have hjl := (List.getElem?_eq_some_iff.1 hj).1
    have := hrecv l hl m hml
    exact ⟨by omega, this.1, this.2.1⟩
  unfold buildTable
  rw [fetchGlobal_ok msgs hown hc]
  simp only [Res.bind]
  rw [decodeAll_ok msgs.flatten (fun m hm => by have := hmem m hm; omega)]
  simp only
  obtain ⟨all1, t1, t2, t3, t4⟩ := computeTags_ok (msgs.flatten.map rawMsg) (List.replicate msgs.length 0) (by
    intro m hm
    obtain ⟨x, hx, rfl⟩ := List.mem_map.1 hm
    rw [List.length_replicate]; exact (hmem x hx).1)
  rw [t1]
  simp only
  obtain ⟨i, hi⟩ := List.getElem?_of_mem hm
  obtain ⟨t, a, -⟩ := t3 i (rawMsg m) (by rw [List.getElem?_map, hi]; rfl)
  rw [layAll_throws mx r all1 _ _ ⟨_, List.mem_of_getElem? a, hr, hbig⟩]

/-! ### Filling and reading the caches -/

theorem cacheWrite_spec (bufs : List (List Byte)) (p : Nat × Nat) (b y : List Byte) (h : rangeOf bufs p b.length = some y) :
    ∃ bufs', cacheWrite bufs p.1 p.2 b = .ok bufs' ∧ bufs'.map List.length = bufs.map List.length ∧ rangeOf bufs' p b.length = some b ∧
      ∀ (q : Nat × Nat) n, (q.1 ≠ p.1 ∨ q.2 + n ≤ p.2 ∨ p.2 + b.length ≤ q.2) → rangeOf bufs' q n = rangeOf bufs q n := by
  obtain ⟨d, d', h1, h2, h3, h4, h5⟩ := store_block bufs p.1 p.2 b y h
  have hle : p.2 + b.length ≤ d.length := by
    unfold blockWrite at h2
    by_contra hc
    rw [if_neg hc] at h2; cases h2
  refine ⟨bufs.set p.1 d', ?_, h3, h4, h5⟩
  unfold cacheWrite
  rw [h1]
  simp only
  rw [if_neg (by omega), if_neg (by omega), h2]; rfl

theorem fillLoop_spec (L : List (CMsg × List Byte)) (bufs : List (List Byte))
    (hin : ∀ z ∈ L, z.2.length = z.1.size ∧ ∃ p y, z.1.offSend = some p ∧ rangeOf bufs p z.1.size = some y)
    (hd : L.Pairwise fun x y => ∀ p q, x.1.offSend = some p → y.1.offSend = some q → p.1 ≠ q.1 ∨ p.2 + x.1.size ≤ q.2 ∨ q.2 + y.1.size ≤ p.2) :
    ∃ bufs', fillLoop (L.map (·.1)) (L.map (·.2)) bufs = .ok bufs' ∧ bufs'.map List.length = bufs.map List.length ∧
      (∀ z ∈ L, ∀ p, z.1.offSend = some p → rangeOf bufs' p z.1.size = some z.2) ∧
      ∀ (q : Nat × Nat) n, (∀ z ∈ L, ∀ p, z.1.offSend = some p → q.1 ≠ p.1 ∨ q.2 + n ≤ p.2 ∨ p.2 + z.1.size ≤ q.2) → rangeOf bufs' q n = rangeOf bufs q n := by
  induction L generalizing bufs with
  | nil => exact ⟨bufs, rfl, rfl, by simp, fun _ _ _ => rfl⟩
  | cons z L ih =>
    obtain ⟨hd1, hd2⟩ := List.pairwise_cons.1 hd
    obtain ⟨hz, p, y, hp, hy⟩ := hin z List.mem_cons_self
    rw [← hz] at hy
    obtain ⟨b1, c1, c2, c3, c4⟩ := cacheWrite_spec bufs p z.2 y hy
    obtain ⟨b2, i1, i2, i3, i4⟩ := ih b1 (fun x hx => by
      obtain ⟨e1, q, y', e2, e3⟩ := hin x (List.mem_cons_of_mem _ hx)
      obtain ⟨y'', e4⟩ := rangeOf_congr_some _ _ c2 q x.1.size y' e3
      exact ⟨e1, q, y'', e2, e4⟩) hd2
    refine ⟨b2, ?_, by rw [i2, c2], ?_, ?_⟩
    · simp only [List.map_cons, fillLoop, hp, c1, Res.bind]
      exact i1
    · intro x hx q hq
      rcases List.mem_cons.1 hx with rfl | hx
      · rw [hp] at hq; cases hq
        rw [i4 p _ (fun w hw q hq => hd1 w hw p q hp hq), ← hz]
        exact c3
      · exact i3 x hx q hq
    · intro q n hq
      rw [i4 q n (fun w hw => hq w (List.mem_cons_of_mem _ hw))]
      exact c4 q n (by have := hq z List.mem_cons_self p hp; rw [hz]; exact this)

/-- Inserting entries in a multimap. -/
def addEnts (acc : List SEnt) (l : List SEnt) : List SEnt := l.foldl (fun acc e => ddsAddObj acc e.1.1 e.1.2 e.2) acc

theorem addEnts_spec (l : List SEnt) : ∀ acc, MMOk acc → MMOk (addEnts acc l) ∧ (addEnts acc l).Perm (acc ++ l) ∧ KeyEq (addEnts acc l) (acc ++ l) := by
  induction l with
  | nil => intro acc h; exact ⟨h, by simp [addEnts], by simp [addEnts, KeyEq]⟩
  | cons e l ih =>
    intro acc h
    obtain ⟨h1, h2, h3⟩ := ih (ddsAddObj acc e.1.1 e.1.2 e.2) (mmEmplace_ok _ _ h)
    refine ⟨h1, h2.trans ?_, h3.trans ?_⟩
    · refine (List.Perm.append_right _ (mmEmplace_perm acc _)).trans ?_
      simp only [List.cons_append]
      exact List.perm_middle.symm
    · have := KeyEq.append (mmEmplace_keyEq acc e h) (KeyEq.refl l)
      simpa [ddsAddObj] using this

theorem unpackAll_spec (env : Nat → SerEnv) (rk : Nat → Nat) (bufs : List (List Byte)) (L : List (CMsg × PComm)) : ∀ (i : Nat) (acc : List SEnt),
    (∀ z ∈ L, ∃ p b, z.1.offRecv = some p ∧ rangeOf bufs p z.1.size = some b ∧ ∀ (e : SerEnv) acc, unpackComm e rk z.1.sender b acc = .ok (addEnts acc z.2.src)) →
    unpackAll env rk bufs i (L.map (·.1)) acc = .ok (addEnts acc (L.flatMap fun z => z.2.src)) := by
  induction L with
  | nil => intro i acc _; rfl
  | cons z L ih =>
    intro i acc h
    obtain ⟨p, b, h1, h2, h3⟩ := h z List.mem_cons_self
    have hr : cacheRead bufs p.1 p.2 z.1.size = .ok b := by
      unfold cacheRead
      unfold rangeOf at h2
      cases hb : bufs[p.1]? with
      | none => rw [hb] at h2; simp at h2
      | some d =>
        rw [hb] at h2
        simp only at h2 ⊢
        split at h2
        · rw [if_neg (by omega)]
          simp only [Option.some.injEq] at h2
          rw [h2]
        · cases h2
    simp only [List.map_cons, unpackAll, h1, hr, Res.bind, h3, List.flatMap_cons]
    rw [ih (i + 1) _ (fun x hx => h x (List.mem_cons_of_mem _ hx))]
    unfold addEnts
    rw [List.foldl_append]

theorem table_filter (msgs : List (List CMsgIn)) (mx r : Nat) (t : CommTable) (h : buildTable msgs mx r = .ok t) :
    t.send = t.all.filter (fun m => decide (m.sender = r)) ∧ t.recv = t.all.filter (fun m => decide (m.receiver = r)) := by
  unfold buildTable at h
  cases h1 : fetchGlobal msgs with
  | throws => rw [h1] at h; cases h
  | ub => rw [h1] at h; cases h
  | ok a =>
    rw [h1] at h
    simp only [Res.bind] at h
    cases h2 : decodeAll a with
    | throws => rw [h2] at h; cases h
    | ub => rw [h2] at h; cases h
    | ok b =>
      rw [h2] at h
      simp only at h
      cases h3 : computeTags b (List.replicate msgs.length 0) with
      | throws => rw [h3] at h; cases h
      | ub => rw [h3] at h; cases h
      | ok c =>
        rw [h3] at h
        simp only at h
        cases h4 : layAll mx r c ⟨[], 0, 0⟩ ⟨[], 0, 0⟩ with
        | throws => rw [h4] at h; cases h
        | ub => rw [h4] at h; cases h
        | ok d =>
          rw [h4] at h
          cases h
          exact ⟨(pickMsgs_spec _ _).2, (pickMsgs_spec _ _).2⟩

/-! ### Aligned lists -/

theorem zip_filter_aligned {α β : Type} (p : α → Bool) (q : β → Bool) (l : List α) : ∀ (m : List β), l.length = m.length →
    (∀ (i : Nat) a b, l[i]? = some a → m[i]? = some b → p a = q b) →
    ((l.zip m).filter fun z => p z.1).map (·.1) = l.filter p ∧ ((l.zip m).filter fun z => p z.1).map (·.2) = m.filter q := by
  induction l with
  | nil => intro m h _; have : m = [] := List.eq_nil_of_length_eq_zero (by simpa using h.symm); subst this; simp
  | cons a l ih =>
    intro m h hp
    cases m with
    | nil => simp at h
    | cons b m =>
      obtain ⟨i1, i2⟩ := ih m (by simpa using h) (fun i x y hx hy => hp (i + 1) x y (by simpa using hx) (by simpa using hy))
      have h0 := hp 0 a b rfl rfl
      simp only [List.zip_cons_cons]
      cases hc : p a with
      | true =>
        rw [List.filter_cons_of_pos (by exact hc), List.filter_cons_of_pos hc, List.filter_cons_of_pos (by rw [← h0]; exact hc)]
        simp only [List.map_cons, i1, i2, and_self]
      | false =>
        rw [List.filter_cons_of_neg (by simp [hc]), List.filter_cons_of_neg (by simp [hc]), List.filter_cons_of_neg (by rw [← h0]; simp [hc])]
        exact ⟨i1, i2⟩

theorem filter_own_flatten {α : Type} (f : α → Nat) (G : Nat → List α) (W : Nat) (h : ∀ r < W, ∀ x ∈ G r, f x = r) (s : Nat) (hs : s < W) :
    (((List.range W).map G).flatten).filter (fun x => decide (f x = s)) = G s := by
  induction W with
  | zero => omega
  | succ W ih =>
    rw [List.range_succ, List.map_append, List.flatten_append, List.filter_append]
    simp only [List.map_cons, List.map_nil, List.flatten_cons, List.flatten_nil, List.append_nil]
    by_cases hsW : s = W
    · subst hsW
      have e1 : (((List.range s).map G).flatten).filter (fun x => decide (f x = s)) = [] := by
        rw [List.filter_eq_nil_iff]
        intro x hx
        obtain ⟨l, hl, hx⟩ := List.mem_flatten.1 hx
        obtain ⟨r, hr, rfl⟩ := List.mem_map.1 hl
        have hr := List.mem_range.1 hr
        have := h r (by omega) x hx
        simp only [decide_eq_true_eq]; omega
      rw [e1, List.nil_append, List.filter_eq_self]
      intro x hx
      simpa using h s (by omega) x hx
    · rw [ih (fun r hr => h r (by omega)) (by omega)]
      have : (G W).filter (fun x => decide (f x = s)) = [] := by
        rw [List.filter_eq_nil_iff]
        intro x hx
        have := h W (by omega) x hx
        simp only [decide_eq_true_eq]; omega
      rw [this, List.append_nil]

theorem flatMap_filter_block {α β : Type} (p : α → Bool) (q : β → Bool) (f : α → List β) (l : List α) (h : ∀ a ∈ l, ∀ b ∈ f a, q b = p a) :
    (l.filter p).flatMap f = (l.flatMap f).filter q := by
  induction l with
  | nil => rfl
  | cons a l ih =>
    have hi := ih (fun x hx => h x (List.mem_cons_of_mem _ hx))
    have ha := h a List.mem_cons_self
    rw [List.flatMap_cons, List.filter_append]
    cases hc : p a with
    | true =>
      rw [List.filter_cons_of_pos hc, List.flatMap_cons, hi, List.filter_eq_self.2 (show ∀ b ∈ f a, q b = true from fun b hb => by rw [ha b hb, hc])]
    | false =>
      rw [List.filter_cons_of_neg (by simp [hc]), hi, List.filter_eq_nil_iff.2 (show ∀ b ∈ f a, ¬ q b = true from fun b hb => by rw [ha b hb, hc]; simp), List.nil_append]

theorem flatten_range_perm {α β : Type} (F : Nat → List α) (g : α → List β) (D : List (List β)) (h : ∀ (r : Nat) l, D[r]? = some l → ((F r).flatMap g).Perm l) :
    ((((List.range D.length).map F).flatten).flatMap g).Perm D.flatten := by
  induction D generalizing F with
  | nil => simp
  | cons d D ih =>
    rw [List.length_cons, List.range_succ_eq_map]
    simp only [List.map_cons, List.flatten_cons, List.flatMap_append, List.map_map]
    refine List.Perm.append (h 0 d rfl) ?_
    exact ih (F ∘ Nat.succ) (fun r l hl => h (r + 1) l (by simpa using hl))

theorem flatten_range_keyEq {α V : Type} (F : Nat → List α) (g : α → List ((Nat × Nat) × V)) (D : List (List ((Nat × Nat) × V)))
    (h : ∀ (r : Nat) l, D[r]? = some l → KeyEq ((F r).flatMap g) l) : KeyEq ((((List.range D.length).map F).flatten).flatMap g) D.flatten := by
  induction D generalizing F with
  | nil => simp [KeyEq]
  | cons d D ih =>
    rw [List.length_cons, List.range_succ_eq_map]
    simp only [List.map_cons, List.flatten_cons, List.flatMap_append, List.map_map]
    refine KeyEq.append (h 0 d rfl) ?_
    exact ih (F ∘ Nat.succ) (fun r l hl => h (r + 1) l (by simpa using hl))

theorem packAll_ok (env : Nat → SerEnv) (cs : List PComm) (P : PComm → List Byte → Prop) : ∀ i,
    (∀ c ∈ cs, ∀ e, ∃ b, packComm e c = .ok b ∧ P c b) →
    ∃ G : List (PComm × List Byte), packAll env i cs = .ok (G.map (·.2)) ∧ G.map (·.1) = cs ∧ ∀ z ∈ G, P z.1 z.2 := by
  induction cs with
  | nil => intro i _; exact ⟨[], rfl, rfl, by simp⟩
  | cons c cs ih =>
    intro i h
    obtain ⟨b, h1, h2⟩ := h c List.mem_cons_self (env i)
    obtain ⟨G, g1, g2, g3⟩ := ih (i + 1) (fun x hx => h x (List.mem_cons_of_mem _ hx))
    refine ⟨(c, b) :: G, ?_, by simp [g2], ?_⟩
    · simp only [packAll, h1, g1, Res.bind, List.map_cons]
    · intro z hz
      rcases List.mem_cons.1 hz with rfl | hz
      · exact h2
      · exact g3 z hz

def toMsg (z : PComm × List Byte) : CMsgIn := ⟨z.2.length, z.1.sender, z.1.receiver⟩

theorem msgInfos_eq (G : List (PComm × List Byte)) : msgInfos (G.map (·.1)) (G.map (·.2)) = G.map toMsg := by
  induction G with
  | nil => rfl
  | cons z G ih => simp only [List.map_cons, msgInfos, ih]; rfl

/-! ### The property -/

/-- The data the ranks pass: ids are u64, buffers exist in memory, every rank sends only data of its own ids, to ids of existing ranks. -/
structure CommData (rk : Nat → Nat) (data : List (List SEnt)) : Prop where
  ranks : data.length < 2 ^ 31
  count : data.flatten.length < 2 ^ 31
  own : ∀ (r : Nat) l, data[r]? = some l → ∀ e ∈ l, rk e.1.1 = r
  recv : ∀ l ∈ data, ∀ e ∈ l, rk e.1.2 < data.length
  word : ∀ l ∈ data, ∀ e ∈ l, e.1.1 < 2 ^ 64 ∧ e.1.2 < 2 ^ 64 ∧ e.2.length < 2 ^ 61

/-- `distributed_data_sparse_comm` on all ranks: for every initial memory and execution order in the serializers (`env`, `env2`) and contents of
the caches (`sb0`, `rb0`), every rank passes every stage without error, no execution of the exchange blocks (even if MPI buffers nothing), all
executions end, and at the end `P r recv` holds of the container `recv` received by rank `r`. -/
def CommDelivers (rk : Nat → Nat) (mx dev lim : Nat) (buf : Bool) (data : List (List SEnt)) (P : Nat → List SEnt → Prop) : Prop :=
  ∃ cs : Nat → List PComm, (∀ (r : Nat) l, data[r]? = some l → prepComms rk mx l = .ok (cs r)) ∧
  ∀ env : Nat → Nat → SerEnv, ∃ pl : Nat → List (List Byte), (∀ r < data.length, packAll (env r) 0 (cs r) = .ok (pl r)) ∧
  ∃ msgs, msgs = (List.range data.length).map (fun r => msgInfos (cs r) (pl r)) ∧
  ∃ tab : Nat → CommTable, (∀ r < data.length, buildTable msgs (commMaxAlloc dev mx) r = .ok (tab r)) ∧
  ∀ sb0 rb0 : Nat → List (List Byte), (∀ r < data.length, (sb0 r).map List.length = (tab r).sendSizes ∧ (rb0 r).map List.length = (tab r).recvSizes) →
  ∃ sb : Nat → List (List Byte), (∀ r < data.length, fillCache (tab r).send (pl r) (sb0 r) = .ok (sb r)) ∧
  ∃ posts : Nat → List (XIter (List Byte)), (∀ r < data.length, sparseExchangePosts r (tab r) (sb r) (rb0 r) = .ok (posts r)) ∧
  (∀ k s, XRun data.length msgs.flatten.length lim buf (xprogOf posts) k s →
    (s.Final data.length msgs.flatten.length (xprogOf posts) ∨ ∃ s', XStep data.length msgs.flatten.length lim buf (xprogOf posts) s s') ∧
      k ≤ data.length * (3 * msgs.flatten.length)) ∧
  ∀ k s, XRun data.length msgs.flatten.length lim buf (xprogOf posts) k s → s.Final data.length msgs.flatten.length (xprogOf posts) →
  ∀ r < data.length, ∃ rb, xchStore r (s.got r) (tab r).all 0 (rb0 r) = .ok rb ∧
  ∀ env2 : Nat → SerEnv, ∃ recv, unpackAll env2 rk rb 0 (tab r).recv [] = .ok recv ∧ P r recv

theorem CommDelivers.mono {rk : Nat → Nat} {mx dev lim : Nat} {buf : Bool} {data : List (List SEnt)} {P Q : Nat → List SEnt → Prop}
    (h : CommDelivers rk mx dev lim buf data P) (hpq : ∀ r < data.length, ∀ l, P r l → Q r l) : CommDelivers rk mx dev lim buf data Q := by
  obtain ⟨cs, h1, h⟩ := h
  refine ⟨cs, h1, fun env => ?_⟩
  obtain ⟨pl, h2, msgs, h3, tab, h4, h⟩ := h env
  refine ⟨pl, h2, msgs, h3, tab, h4, fun sb0 rb0 hs => ?_⟩
  obtain ⟨sb, h5, posts, h6, h7, h⟩ := h sb0 rb0 hs
  refine ⟨sb, h5, posts, h6, h7, fun k s hk hF r hr => ?_⟩
  obtain ⟨rb, h8, h⟩ := h k s hk hF r hr
  refine ⟨rb, h8, fun env2 => ?_⟩
  obtain ⟨recv, h9, h10⟩ := h env2
  exact ⟨recv, h9, hpq r hr recv h10⟩

theorem bufsFor_of_sizes (sizes : List Nat) (bufs : List (List Byte)) (h : bufs.map List.length = sizes) : BufsFor sizes bufs := by
  subst h
  refine ⟨by simp, fun i v b h1 h2 => ?_⟩
  rw [List.getElem?_map, h2] at h1
  simp only [Option.map_some, Option.some.injEq] at h1
  omega

/-- **C25, exchange.** For every number of ranks, ids, id to rank map, data and completion order: if every entry fits in a message and no prepared
message with its 8 byte preamble exceeds the allocation limit (below 2^31), the exchange succeeds and each rank receives exactly the entries of
all ranks whose receiver id it owns, each once, with its bytes, in a well formed container, entries of one sender and receiver id in the order
the sender held them. -/
theorem C25_exchange (rk : Nat → Nat) (mx dev lim : Nat) (buf : Bool) (data : List (List SEnt)) (h : CommData rk data) (hlim : 0 < lim)
    (hmx : mx < 2 ^ 31) (h8 : 8 ≤ mx) (hfit : ∀ l ∈ data, ∀ e ∈ l, 32 + alignRepr e.2.length ≤ mx)
    (hpre : ∀ l ∈ data, ∀ cs, prepComms rk mx l = .ok cs → ∀ c ∈ cs, c.sz.total + 8 ≤ commMaxAlloc dev mx) :
    CommDelivers rk mx dev lim buf data (fun r recv => MMOk recv ∧ recv.Perm (data.flatten.filter fun e => decide (rk e.1.2 = r)) ∧
      KeyEq recv (data.flatten.filter fun e => decide (rk e.1.2 = r))) := by
  have hma : commMaxAlloc dev mx ≤ mx := by unfold commMaxAlloc; split <;> omega
  generalize hM : commMaxAlloc dev mx = M at *
  -- preparation
  have hprep : ∀ r : Nat, ∃ cs : List PComm, ∀ l, data[r]? = some l → prepComms rk mx l = .ok cs ∧ ((cs.flatMap PComm.src).Perm l ∧ KeyEq (cs.flatMap PComm.src) l) ∧
      ∀ c ∈ cs, c.sz = entsSize c.src ∧ c.src ≠ [] ∧ entsTotal c.src ≤ mx ∧ ∀ e ∈ c.src, rk e.1.1 = c.sender ∧ rk e.1.2 = c.receiver := by
    intro r
    cases hr : data[r]? with
    | none => exact ⟨[], fun l hl => by cases hl⟩
    | some l =>
      have hl := List.mem_of_getElem? hr
      rcases prepComms_spec rk mx (by omega) h8 l (fun d hd => (h.word l hl d hd).2.2) with ⟨⟨d, hd, hb⟩, -⟩ | ⟨-, cs, c1, c2, c3⟩
      · have := hfit l hl d hd
        unfold entA at hb; omega
      · refine ⟨cs, fun l' hl' => ?_⟩
        cases hl'
        exact ⟨c1, c2, c3⟩
  choose cs hcs using hprep
  have hget : ∀ r < data.length, data[r]? = some (data[r]?.getD []) := by
    intro r hr
    rw [List.getElem?_eq_getElem hr]; rfl
  have hcs' : ∀ r < data.length, (∀ c ∈ cs r, c.sz = entsSize c.src ∧ c.src ≠ [] ∧ entsTotal c.src + 8 ≤ M ∧ c.sender = r ∧ c.receiver < data.length ∧
      ∀ e ∈ c.src, rk e.1.1 = c.sender ∧ rk e.1.2 = c.receiver ∧ e.1.1 < 2 ^ 64 ∧ e.1.2 < 2 ^ 64 ∧ e.2.length < 2 ^ 61) := by
    intro r hr c hc
    have hl := hget r hr
    generalize data[r]?.getD [] = l at hl
    obtain ⟨a1, a2, a3⟩ := hcs r l hl
    obtain ⟨b1, b2, b3, b4⟩ := a3 c hc
    have hlm := List.mem_of_getElem? hl
    have hmem : ∀ e ∈ c.src, e ∈ l := fun e he => a2.1.subset (List.mem_flatMap.2 ⟨c, hc, he⟩)
    have hp := hpre l hlm (cs r) a1 c hc
    rw [b1, entsSize_total _ (by omega)] at hp
    obtain ⟨e0, he0⟩ := List.exists_mem_of_ne_nil _ b2
    refine ⟨b1, b2, hp, ?_, ?_, fun e he => ⟨(b4 e he).1, (b4 e he).2, h.word l hlm e (hmem e he)⟩⟩
    · rw [← (b4 e0 he0).1]; exact h.own r l hl e0 (hmem e0 he0)
    · rw [← (b4 e0 he0).2]; exact h.recv l hlm e0 (hmem e0 he0)
  refine ⟨cs, fun r l hl => (hcs r l hl).1, fun env => ?_⟩
  -- packing
  have hpack : ∀ r : Nat, ∃ G : List (PComm × List Byte), r < data.length → packAll (env r) 0 (cs r) = .ok (G.map (·.2)) ∧ G.map (·.1) = cs r ∧
      ∀ z ∈ G, z.2.length = entsTotal z.1.src + 8 ∧ ∀ (e : SerEnv) acc, unpackComm e rk z.1.sender z.2 acc = .ok (addEnts acc z.1.src) := by
    intro r
    by_cases hr : r < data.length
    · obtain ⟨G, g⟩ := packAll_ok (env r) (cs r) (fun c b => b.length = entsTotal c.src + 8 ∧
        ∀ (e : SerEnv) acc, unpackComm e rk c.sender b acc = .ok (addEnts acc c.src)) 0 (fun c hc e => by
          obtain ⟨b1, b2, b3, b4, b5, b6⟩ := hcs' r hr c hc
          obtain ⟨b, p1, p2, p3⟩ := packComm_spec e c b1 (fun x hx => (b6 x hx).2.2.2.2) (by omega)
          exact ⟨b, p1, p2, fun e' acc => p3 e' rk acc (fun x hx => ⟨(b6 x hx).1, (b6 x hx).2.2.1, (b6 x hx).2.2.2.1⟩)⟩)
      exact ⟨G, fun _ => g⟩
    · exact ⟨[], fun hr' => absurd hr' hr⟩
  choose G hG using hpack
  refine ⟨fun r => (G r).map (·.2), fun r hr => (hG r hr).1, _, rfl, ?_⟩
  have hmsgs : (List.range data.length).map (fun r => msgInfos (cs r) ((G r).map (·.2))) = (List.range data.length).map (fun r => (G r).map toMsg) := by
    apply List.map_congr_left
    intro r hr
    rw [← (hG r (List.mem_range.1 hr)).2.1, msgInfos_eq]
  rw [hmsgs]
  generalize hms : (List.range data.length).map (fun r => (G r).map toMsg) = msgs
  have hmlen : msgs.length = data.length := by rw [← hms]; simp
  have hmget : ∀ (r : Nat) l, msgs[r]? = some l → r < data.length ∧ l = (G r).map toMsg := by
    intro r l hl
    have hr : r < data.length := by rw [← hmlen]; exact (List.getElem?_eq_some_iff.1 hl).1
    rw [← hms, List.getElem?_map, List.getElem?_range hr] at hl
    simp only [Option.map_some, Option.some.injEq] at hl
    exact ⟨hr, hl.symm⟩
  -- facts on G
  have hGc : ∀ r < data.length, ∀ z ∈ G r, z.1 ∈ cs r := by
    intro r hr z hz
    rw [← (hG r hr).2.1]
    exact List.mem_map_of_mem hz
  generalize hGG : ((List.range data.length).map G).flatten = GG
  have hflat : msgs.flatten = GG.map toMsg := by
    rw [← hms, ← hGG, List.map_flatten, List.map_map]; rfl
  have hmemGG : ∀ z ∈ GG, ∃ r < data.length, z ∈ G r := by
    intro z hz
    rw [← hGG] at hz
    obtain ⟨l, hl, hz⟩ := List.mem_flatten.1 hz
    obtain ⟨r, hr, rfl⟩ := List.mem_map.1 hl
    exact ⟨r, List.mem_range.1 hr, hz⟩
  have hGGperm : (GG.flatMap fun z => z.1.src).Perm data.flatten := by
    rw [← hGG]
    refine flatten_range_perm G (fun z => z.1.src) data (fun r l hl => ?_)
    have hr := (List.getElem?_eq_some_iff.1 hl).1
    obtain ⟨-, a2, -⟩ := hcs r l hl
    have : (G r).flatMap (fun z => z.1.src) = (cs r).flatMap PComm.src := by
      rw [← (hG r hr).2.1, List.flatMap_map]
    rw [this]; exact a2.1
  have hGGkey : KeyEq (GG.flatMap fun z => z.1.src) data.flatten := by
    rw [← hGG]
    refine flatten_range_keyEq G (fun z => z.1.src) data (fun r l hl => ?_)
    have hr := (List.getElem?_eq_some_iff.1 hl).1
    obtain ⟨-, a2, -⟩ := hcs r l hl
    have : (G r).flatMap (fun z => z.1.src) = (cs r).flatMap PComm.src := by
      rw [← (hG r hr).2.1, List.flatMap_map]
    rw [this]; exact a2.2
  have hcount : GG.length ≤ data.flatten.length := by
    rw [← hGGperm.length_eq]
    have hne : ∀ z ∈ GG, z.1.src ≠ [] := by
      intro z hz
      obtain ⟨r, hr, hz⟩ := hmemGG z hz
      exact (hcs' r hr _ (hGc r hr z hz)).2.1
    clear * - hne
    induction GG with
    | nil => simp
    | cons z l ih =>
      have h1 := ih (fun x hx => hne x (List.mem_cons_of_mem _ hx))
      have h2 := List.length_pos_of_ne_nil (hne z List.mem_cons_self)
      rw [List.flatMap_cons, List.length_append, List.length_cons]; omega
  have hok : MsgsOk M msgs := by
    refine ⟨by rw [hmlen]; exact h.ranks, by rw [hflat, List.length_map]; have := h.count; omega, by omega, ?_, ?_, ?_⟩
    · intro r l hl m hm
      obtain ⟨hr, rfl⟩ := hmget r l hl
      obtain ⟨z, hz, rfl⟩ := List.mem_map.1 hm
      exact (hcs' r hr z.1 (hGc r hr z hz)).2.2.2.1
    · intro l hl m hm
      obtain ⟨r, hr'⟩ := List.getElem?_of_mem hl
      obtain ⟨hr, rfl⟩ := hmget r l hr'
      obtain ⟨z, hz, rfl⟩ := List.mem_map.1 hm
      rw [hmlen]
      exact (hcs' r hr z.1 (hGc r hr z hz)).2.2.2.2.1
    · intro l hl m hm
      obtain ⟨r, hr'⟩ := List.getElem?_of_mem hl
      obtain ⟨hr, rfl⟩ := hmget r l hr'
      obtain ⟨z, hz, rfl⟩ := List.mem_map.1 hm
      have h1 := (hcs' r hr z.1 (hGc r hr z hz)).2.2.1
      have h2 := ((hG r hr).2.2 z hz).1
      show 0 < z.2.length ∧ z.2.length ≤ M
      omega
  obtain ⟨tab, htab, hex⟩ := C24_exchange (B := Byte) M msgs hok (by omega) lim hlim buf
  obtain ⟨all, t1, t2, t3, t4⟩ := C24_table M msgs hok
  rw [hmlen] at htab hex
  refine ⟨tab, (by rw [hM]; exact htab), fun sb0 rb0 hsz => ?_⟩
  have htf : ∀ r < data.length, (tab r).send = (tab r).all.filter (fun m => decide (m.sender = r)) ∧ (tab r).recv = (tab r).all.filter (fun m => decide (m.receiver = r)) :=
    fun r hr => table_filter msgs M r (tab r) (htab r hr)
  have htt : ∀ r < data.length, (tab r).all.map CMsg.core = GG.map toMsg ∧ Placed M (tab r).sendSizes ((tab r).send.map fun m => (m.size, m.offSend)) ∧
      Placed M (tab r).recvSizes ((tab r).recv.map fun m => (m.size, m.offRecv)) := by
    intro r hr
    obtain ⟨t, a1, a2, a3, a4, a5, a6, a7⟩ := t4 r ((G r).map toMsg) (by rw [← hms, List.getElem?_map, List.getElem?_range hr]; rfl)
    rw [htab r hr] at a1
    cases a1
    refine ⟨?_, a6, a7⟩
    rw [← hflat, ← t1, ← a2, List.map_map]; rfl
  have halign : ∀ r < data.length, ∀ (i : Nat) m, (tab r).all[i]? = some m → ∃ z, GG[i]? = some z ∧ m.core = toMsg z := by
    intro r hr i m hm
    have := congrArg (fun l => l[i]?) (htt r hr).1
    simp only [List.getElem?_map, hm, Option.map_some] at this
    cases hz : GG[i]? with
    | none => rw [hz] at this; simp at this
    | some z => rw [hz] at this; exact ⟨z, rfl, by simpa using this⟩
  have hlenall : ∀ r < data.length, (tab r).all.length = GG.length := by
    intro r hr
    have := congrArg List.length (htt r hr).1
    simpa using this
  -- filling
  have hfill : ∀ r : Nat, ∃ sb : List (List Byte), r < data.length → fillCache (tab r).send ((G r).map (·.2)) (sb0 r) = .ok sb ∧ sb.map List.length = (sb0 r).map List.length ∧
      ∀ (i : Nat) m z p, (tab r).all[i]? = some m → GG[i]? = some z → m.sender = r → m.offSend = some p → rangeOf sb p m.size = some z.2 := by
    intro r
    by_cases hr : r < data.length
    · obtain ⟨f1, f2⟩ := zip_filter_aligned (fun m : CMsg => decide (m.sender = r)) (fun z : PComm × List Byte => decide (z.1.sender = r)) (tab r).all GG (hlenall r hr)
        (fun i a b ha hb => by
          obtain ⟨z, hz, e⟩ := halign r hr i a ha
          rw [hb] at hz; cases hz
          have : a.sender = b.1.sender := congrArg CMsgIn.sender e
          rw [this])
      have f2' : ((((tab r).all.zip GG).filter fun z => decide (z.1.sender = r)).map (·.2)) = G r := by
        rw [f2, ← hGG]
        exact filter_own_flatten (fun z : PComm × List Byte => z.1.sender) G data.length (fun s hs x hx => (hcs' s hs x.1 (hGc s hs x hx)).2.2.2.1) r hr
      have hLsize : ∀ z ∈ ((tab r).all.zip GG), z.2.2.length = z.1.size := by
        intro z hz
        obtain ⟨i, hi⟩ := List.getElem?_of_mem hz
        rw [List.getElem?_zip_eq_some] at hi
        obtain ⟨w, hw, e⟩ := halign r hr i z.1 hi.1
        rw [hi.2] at hw; cases hw
        exact (congrArg CMsgIn.size e).symm
      have hpl := (htt r hr).2.1
      have hsend : (tab r).send = ((((tab r).all.zip GG).filter fun z => decide (z.1.sender = r)).map (·.1)) := by rw [(htf r hr).1, f1]
      obtain ⟨sb, b1, b2, b3, -⟩ := fillLoop_spec ((((tab r).all.zip GG).filter fun z => decide (z.1.sender = r)).map fun z => (z.1, z.2.2)) (sb0 r) (by
          intro z hz
          obtain ⟨w, hw, rfl⟩ := List.mem_map.1 hz
          refine ⟨hLsize w (List.mem_filter.1 hw).1, ?_⟩
          have hms : w.1 ∈ (tab r).send := by rw [hsend]; exact List.mem_map_of_mem hw
          obtain ⟨id, off, v, c1, c2, c3⟩ := hpl.inside (w.1.size, w.1.offSend) (List.mem_map_of_mem (f := fun m : CMsg => (m.size, m.offSend)) hms)
          obtain ⟨b1, b2⟩ := bufsFor_of_sizes _ _ (hsz r hr).1
          obtain ⟨y, hy⟩ := rangeOf_exists (tab r).sendSizes (sb0 r) b1.symm b2 (id, off) w.1.size v c2 c3
          exact ⟨(id, off), y, c1, hy⟩)
        (by
          have hd := hpl.disjoint
          rw [hsend, List.map_map] at hd
          have hd' := (List.pairwise_map (f := (fun m : CMsg => (m.size, m.offSend)) ∘ fun z : CMsg × PComm × List Byte => z.1)).1 hd
          exact (List.pairwise_map (f := fun z : CMsg × PComm × List Byte => (z.1, z.2.2))).2 (hd'.imp (fun {x y} hxy p q hp hq => hxy p q hp hq)))
      refine ⟨sb, fun _ => ⟨?_, b2, fun i m z p hm hz hs hp => ?_⟩⟩
      · unfold fillCache
        rw [if_neg (by rw [hsend, List.length_map, List.length_map, ← f2', List.length_map]; simp)]
        have e1 : (tab r).send = ((((tab r).all.zip GG).filter fun z => decide (z.1.sender = r)).map fun z => (z.1, z.2.2)).map (·.1) := by
          rw [hsend, List.map_map]; rfl
        have e2 : (G r).map (·.2) = ((((tab r).all.zip GG).filter fun z => decide (z.1.sender = r)).map fun z => (z.1, z.2.2)).map (·.2) := by
          rw [← f2', List.map_map, List.map_map]; rfl
        rw [e1, e2]
        exact b1
      · have hzip : ((tab r).all.zip GG)[i]? = some (m, z) := by rw [List.getElem?_zip_eq_some]; exact ⟨hm, hz⟩
        exact b3 (m, z.2) (List.mem_map.2 ⟨(m, z), List.mem_filter.2 ⟨List.mem_of_getElem? hzip, by simpa using hs⟩, rfl⟩) p hp
    · exact ⟨[], fun hr' => absurd hr' hr⟩
  choose sb hsb using hfill
  refine ⟨sb, fun r hr => (hsb r hr).1, ?_⟩
  obtain ⟨posts, p1, p2, p3⟩ := hex sb rb0 (fun r hr => ⟨bufsFor_of_sizes _ _ (by rw [(hsb r hr).2.1]; exact (hsz r hr).1), bufsFor_of_sizes _ _ (hsz r hr).2⟩)
  refine ⟨posts, p1, p2, fun k s hk hF r hr => ?_⟩
  obtain ⟨rb, q1, q2, q3, -⟩ := p3 k s hk hF r hr
  refine ⟨rb, q1, fun env2 => ?_⟩
  obtain ⟨f1, f2⟩ := zip_filter_aligned (fun m : CMsg => decide (m.receiver = r)) (fun z : PComm × List Byte => decide (z.1.receiver = r)) (tab r).all GG (hlenall r hr)
    (fun i a b ha hb => by
      obtain ⟨z, hz, e⟩ := halign r hr i a ha
      rw [hb] at hz; cases hz
      have : a.receiver = b.1.receiver := congrArg CMsgIn.receiver e
      rw [this])
  have hun := unpackAll_spec env2 rk rb ((((tab r).all.zip GG).filter fun z => decide (z.1.receiver = r)).map fun z => (z.1, z.2.1)) 0 [] (by
    intro v hv
    obtain ⟨w, hw, rfl⟩ := List.mem_map.1 hv
    obtain ⟨hw1, hw2⟩ := List.mem_filter.1 hw
    obtain ⟨i, hi⟩ := List.getElem?_of_mem hw1
    rw [List.getElem?_zip_eq_some] at hi
    obtain ⟨z, hz, e⟩ := halign r hr i w.1 hi.1
    rw [hi.2] at hz; cases hz
    obtain ⟨m', p, q, x, c1, c2, c3, c4, c5, c6⟩ := q3 i w.1 hi.1 (by simpa using hw2)
    obtain ⟨s', hs', hzs⟩ := hmemGG w.2 (List.mem_of_getElem? hi.2)
    have hsnd : w.1.sender = s' := by
      rw [show w.1.sender = w.2.1.sender from congrArg CMsgIn.sender e]
      exact (hcs' s' hs' w.2.1 (hGc s' hs' w.2 hzs)).2.2.2.1
    have hm'size : m'.size = w.1.size := congrArg CMsgIn.size c2
    have hm's : m'.sender = w.1.sender := congrArg CMsgIn.sender c2
    have hfin := (hsb w.1.sender (by rw [hsnd]; exact hs')).2.2 i m' w.2 q c1 hi.2 hm's c4
    rw [hm'size, c5] at hfin
    simp only [Option.some.injEq] at hfin
    refine ⟨p, x, c3, c6, fun e' acc => ?_⟩
    have := ((hG s' hs').2.2 w.2 hzs).2 e' acc
    rw [hfin]
    show unpackComm e' rk w.1.sender w.2.2 acc = _
    rw [show w.1.sender = w.2.1.sender from congrArg CMsgIn.sender e]
    exact this)
  have e1 : (tab r).recv = ((((tab r).all.zip GG).filter fun z => decide (z.1.receiver = r)).map fun z => (z.1, z.2.1)).map (·.1) := by
    rw [(htf r hr).2, ← f1, List.map_map]; rfl
  have e2 : ((((tab r).all.zip GG).filter fun z => decide (z.1.receiver = r)).map fun z => (z.1, z.2.1)).flatMap (fun z => z.2.src) =
      (GG.filter fun z => decide (z.1.receiver = r)).flatMap fun z => z.1.src := by
    rw [← f2, List.flatMap_map, List.flatMap_map]
  rw [← e1, e2] at hun
  refine ⟨_, hun, ?_⟩
  obtain ⟨m1, m2, m3⟩ := addEnts_spec ((GG.filter fun z => decide (z.1.receiver = r)).flatMap fun z => z.1.src) [] (by simp [MMOk])
  have e5 := flatMap_filter_block (fun z : PComm × List Byte => decide (z.1.receiver = r)) (fun e : SEnt => decide (rk e.1.2 = r)) (fun z => z.1.src) GG
    (fun z hz e he => by
      obtain ⟨s', hs', hzs⟩ := hmemGG z hz
      rw [((hcs' s' hs' z.1 (hGc s' hs' z hzs)).2.2.2.2.2 e he).2.1])
  rw [e5] at m1 m2 m3 ⊢
  rw [List.nil_append] at m2 m3
  exact ⟨m1, m2.trans (hGGperm.filter _), m3.trans (hGGkey.filter fun k => decide (rk k.2 = r))⟩

theorem flatten_filter_owner {α : Type} (f : α → Nat) (D : List (List α)) (h : ∀ (r : Nat) l, D[r]? = some l → ∀ x ∈ l, f x = r) (r : Nat) (l : List α)
    (hl : D[r]? = some l) : D.flatten.filter (fun x => decide (f x = r)) = l := by
  have hr := (List.getElem?_eq_some_iff.1 hl).1
  have e : D = (List.range D.length).map (fun r => D[r]?.getD []) := by
    apply List.ext_getElem?
    intro i
    rw [List.getElem?_map]
    by_cases hi : i < D.length
    · rw [List.getElem?_range hi]; simp [hi]
    · rw [List.getElem?_eq_none (by omega), List.getElem?_eq_none (by simp; omega)]; rfl
  have := filter_own_flatten f (fun r => D[r]?.getD []) D.length (fun s hs x hx => by
    rw [List.getElem?_eq_getElem hs] at hx
    exact h s _ (List.getElem?_eq_getElem hs) x hx) r hr
  rw [← e] at this
  rw [this, hl]; rfl

theorem mmOk_map {V U : Type} (f : V → U) (m : List ((Nat × Nat) × V)) (h : MMOk m) : MMOk (m.map fun e => (e.1, f e.2)) :=
  (List.pairwise_map (f := fun e : (Nat × Nat) × V => (e.1, f e.2))).2 h

/-- **C25, order.** Two containers received (of any types, sent separately, on whatever schedule) whose sources held, for each pair of ids, the same
sequence of tags, hold the same keys and tags entry by entry: the fields of a ghost layer sent in separate exchanges can be matched by position. -/
theorem C25_aligned {T U W : Type} (f : T → W) (g : U → W) (a : List ((Nat × Nat) × T)) (b : List ((Nat × Nat) × U)) (sa : List ((Nat × Nat) × T))
    (sb : List ((Nat × Nat) × U)) (ha : MMOk a ∧ KeyEq a sa) (hb : MMOk b ∧ KeyEq b sb)
    (h : ∀ k : Nat × Nat, (sa.filter fun e => decide (e.1 = k)).map (fun e => f e.2) = (sb.filter fun e => decide (e.1 = k)).map (fun e => g e.2)) :
    a.map (fun e => (e.1, f e.2)) = b.map (fun e => (e.1, g e.2)) := by
  have mk : ∀ {V : Type} (q : V → W) (l : List ((Nat × Nat) × V)), MMOk l → MMOk (l.map fun e => (e.1, q e.2)) := by
    intro V q l hl
    unfold MMOk at *
    rw [List.pairwise_map]
    exact hl
  have key : ∀ {V : Type} (q : V → W) (l : List ((Nat × Nat) × V)) (k : Nat × Nat), (l.map fun e => (e.1, q e.2)).filter (fun e => decide (e.1 = k)) =
      ((l.filter fun e => decide (e.1 = k)).map fun e => q e.2).map fun w => (k, w) := by
    intro V q l k
    rw [List.filter_map, List.map_map]
    refine List.map_congr_left fun e he => ?_
    have := (List.mem_filter.1 he).2
    simp only [Function.comp, decide_eq_true_eq] at this ⊢
    rw [this]
  refine keyEq_eq _ _ (mk f a ha.1) (mk g b hb.1) fun k => ?_
  rw [key, key, ha.2 k, hb.2 k, h k]

example : [((2, 5), 7), ((2, 5), 9), ((3, 5), 1)].map (fun e : (Nat × Nat) × Nat => (e.1, e.2 + 1)) =
    [((2, 5), (8, true)), ((2, 5), (10, false)), ((3, 5), (2, true))].map (fun e : (Nat × Nat) × (Nat × Bool) => (e.1, e.2.1)) :=
  C25_aligned (fun n : Nat => n + 1) (fun p : Nat × Bool => p.1) _ _ [((3, 5), 1), ((2, 5), 7), ((2, 5), 9)] [((2, 5), (8, true)), ((3, 5), (2, true)), ((2, 5), (10, false))]
    ⟨by unfold MMOk; decide, fun k => by
      by_cases h1 : ((2, 5) : Nat × Nat) = k
      · subst h1; decide
      · by_cases h2 : ((3, 5) : Nat × Nat) = k
        · subst h2; decide
        · simp [h1, h2]⟩
    ⟨by unfold MMOk; decide, fun k => by
      by_cases h1 : ((2, 5) : Nat × Nat) = k
      · subst h1; decide
      · by_cases h2 : ((3, 5) : Nat × Nat) = k
        · subst h2; decide
        · simp [h1, h2]⟩
    (fun k => by
      by_cases h1 : ((2, 5) : Nat × Nat) = k
      · subst h1; decide
      · by_cases h2 : ((3, 5) : Nat × Nat) = k
        · subst h2; decide
        · simp [h1, h2])

/-- **C25, typed data.** `serialize_sparse_comm` with a serializer that `deser` inverts: what goes through MPI never has sender and receiver on one
rank, and every rank ends with exactly the objects of all ranks whose receiver id it owns, each once, those of one sender and receiver id in the
order the sender held them. -/
theorem C25_serialize {T : Type} (rk : Nat → Nat) (mx dev lim : Nat) (buf : Bool) (ser : T → List Byte) (deser : List Byte → T) (data : List (List ((Nat × Nat) × T)))
    (hinv : ∀ l ∈ data, ∀ e ∈ l, deser (ser e.2) = e.2) (hown : ∀ (r : Nat) l, data[r]? = some l → ∀ e ∈ l, rk e.1.1 = r)
    (h : CommData rk (data.map fun l => (splitSend rk ser l).2)) (hlim : 0 < lim) (hmx : mx < 2 ^ 31) (h8 : 8 ≤ mx)
    (hfit : ∀ l ∈ data, ∀ e ∈ l, 32 + alignRepr (ser e.2).length ≤ mx)
    (hpre : ∀ l ∈ data, ∀ cs, prepComms rk mx (splitSend rk ser l).2 = .ok cs → ∀ c ∈ cs, c.sz.total + 8 ≤ commMaxAlloc dev mx) :
    (∀ l ∈ data, ∀ e ∈ (splitSend rk ser l).2, rk e.1.1 ≠ rk e.1.2) ∧
    CommDelivers rk mx dev lim buf (data.map fun l => (splitSend rk ser l).2) (fun r recv => ∀ l, data[r]? = some l →
      MMOk (joinRecv deser recv (splitSend rk ser l).1) ∧ (joinRecv deser recv (splitSend rk ser l).1).Perm (data.flatten.filter fun e => decide (rk e.1.2 = r)) ∧
      KeyEq (joinRecv deser recv (splitSend rk ser l).1) (data.flatten.filter fun e => decide (rk e.1.2 = r))) := by
  have hsplit : ∀ l : List ((Nat × Nat) × T), (splitSend rk ser l).2 = (l.filter fun e => !decide (rk e.1.1 = rk e.1.2)).map (fun e => (e.1, ser e.2)) ∧
      ((splitSend rk ser l).1.Perm (l.filter fun e => decide (rk e.1.1 = rk e.1.2)) ∧
        KeyEq (splitSend rk ser l).1 (l.filter fun e => decide (rk e.1.1 = rk e.1.2))) ∧ MMOk (splitSend rk ser l).1 := by
    intro l
    have a4 := C22_transfer_order (fun a b => decide (rk a = rk b)) l [] (by simp [MMOk])
    obtain ⟨a1, a2, a3⟩ := C22_transfer_all (fun a b => decide (rk a = rk b)) l [] (by simp [MMOk])
    unfold splitSend
    simp only
    rw [a1]
    exact ⟨rfl, ⟨by simpa using a2, fun k => by rw [a4 k]; rfl⟩, a3⟩
  refine ⟨fun l hl e he => ?_, ?_⟩
  · rw [(hsplit l).1] at he
    obtain ⟨x, hx, rfl⟩ := List.mem_map.1 he
    have := (List.mem_filter.1 hx).2
    simpa using this
  · have hex := C25_exchange rk mx dev lim buf (data.map fun l => (splitSend rk ser l).2) h hlim hmx h8 (by
        intro l' hl' e he
        obtain ⟨l, hl, rfl⟩ := List.mem_map.1 hl'
        rw [(hsplit l).1] at he
        obtain ⟨x, hx, rfl⟩ := List.mem_map.1 he
        exact hfit l hl x (List.mem_filter.1 hx).1) (by
        intro l' hl'
        obtain ⟨l, hl, rfl⟩ := List.mem_map.1 hl'
        exact hpre l hl)
    refine hex.mono (fun r _ recv => ?_)
    rintro ⟨hm, hp, hq⟩ l hl
    obtain ⟨s1, ⟨s2, s2'⟩, s3⟩ := hsplit l
    have j4 := C22_transfer_order (fun _ _ => true) (splitSend rk ser l).1 (recv.map fun e => (e.1, deser e.2)) (mmOk_map deser recv hm)
    obtain ⟨-, j2, j3⟩ := C22_transfer_all (fun _ _ => true) (splitSend rk ser l).1 (recv.map fun e => (e.1, deser e.2)) (mmOk_map deser recv hm)
    have e1 : List.filter (fun kv : (Nat × Nat) × T => (fun _ _ => true : Nat → Nat → Bool) kv.1.1 kv.1.2) (splitSend rk ser l).1 = (splitSend rk ser l).1 :=
      List.filter_eq_self.2 (fun _ _ => rfl)
    rw [e1] at j2 j4
    -- what was received
    have e2 : (data.map fun l => (splitSend rk ser l).2).flatten = (data.flatten.filter fun e => !decide (rk e.1.1 = rk e.1.2)).map (fun e => (e.1, ser e.2)) := by
      clear * - hsplit
      induction data with
      | nil => rfl
      | cons a D ih => simp only [List.map_cons, List.flatten_cons, List.filter_append, List.map_append, ih, (hsplit a).1]
    have e30 : ((data.map fun l => (splitSend rk ser l).2).flatten.filter fun e => decide (rk e.1.2 = r)).map (fun e => (e.1, deser e.2)) =
        ((data.flatten.filter fun e => !decide (rk e.1.1 = rk e.1.2)).filter fun e => decide (rk e.1.2 = r)) := by
      rw [e2, List.filter_map, List.map_map]
      have : ∀ L : List ((Nat × Nat) × T), (∀ e ∈ L, deser (ser e.2) = e.2) →
          List.map ((fun e : SEnt => (e.1, deser e.2)) ∘ fun e : (Nat × Nat) × T => (e.1, ser e.2)) L = L := by
        intro L hL
        conv_rhs => rw [← List.map_id L]
        apply List.map_congr_left
        intro e he
        show (e.1, deser (ser e.2)) = e
        rw [hL e he]
      rw [this _ (fun e he => by
        have h1 := (List.mem_filter.1 (List.mem_filter.1 he).1).1
        obtain ⟨l', hl', he'⟩ := List.mem_flatten.1 h1
        exact hinv l' hl' e he')]
      rfl
    have e3 : (recv.map fun e => (e.1, deser e.2)).Perm ((data.flatten.filter fun e => !decide (rk e.1.1 = rk e.1.2)).filter fun e => decide (rk e.1.2 = r)) := by
      rw [← e30]; exact hp.map _
    have e3' : KeyEq (recv.map fun e => (e.1, deser e.2)) ((data.flatten.filter fun e => !decide (rk e.1.1 = rk e.1.2)).filter fun e => decide (rk e.1.2 = r)) := by
      rw [← e30]; exact hq.map deser
    have e4 : (l.filter fun e => decide (rk e.1.1 = rk e.1.2)) = (data.flatten.filter fun e => decide (rk e.1.2 = r)).filter (fun e => decide (rk e.1.1 = rk e.1.2)) := by
      conv_lhs => rw [← flatten_filter_owner (fun e : (Nat × Nat) × T => rk e.1.1) data hown r l hl]
      rw [List.filter_filter, List.filter_filter]
      apply List.filter_congr
      intro e _
      by_cases h1 : rk e.1.1 = rk e.1.2
      · rw [h1]
      · simp [h1]
    have e5 : ((data.flatten.filter fun e => !decide (rk e.1.1 = rk e.1.2)).filter fun e => decide (rk e.1.2 = r)) =
        (data.flatten.filter fun e => decide (rk e.1.2 = r)).filter (fun e => !decide (rk e.1.1 = rk e.1.2)) := by
      rw [List.filter_filter, List.filter_filter]
      apply List.filter_congr
      intro e _
      rw [Bool.and_comm]
    have j5 : KeyEq (joinRecv deser recv (splitSend rk ser l).1) (data.flatten.filter fun e => decide (rk e.1.2 = r)) := by
      intro k
      refine (j4 k).trans ?_
      rw [e3' k, s2' k, e4, e5]
      by_cases hk : rk k.1 = rk k.2
      · have h1 : (((data.flatten.filter fun e => decide (rk e.1.2 = r)).filter fun e => !decide (rk e.1.1 = rk e.1.2)).filter fun e => decide (e.1 = k)) = [] := by
          rw [List.filter_eq_nil_iff]
          intro z hz hzk
          have h2 := (List.mem_filter.1 hz).2
          have h3 : z.1 = k := by simpa using hzk
          rw [h3] at h2
          simp [hk] at h2
        rw [h1, List.nil_append]
        rw [List.filter_filter]
        apply List.filter_congr
        intro z hz
        by_cases hzk : z.1 = k
        · simp [hzk, hk]
        · simp [hzk]
      · have h1 : (((data.flatten.filter fun e => decide (rk e.1.2 = r)).filter fun e => decide (rk e.1.1 = rk e.1.2)).filter fun e => decide (e.1 = k)) = [] := by
          rw [List.filter_eq_nil_iff]
          intro z hz hzk
          have h2 := (List.mem_filter.1 hz).2
          have h3 : z.1 = k := by simpa using hzk
          rw [h3] at h2
          simp [hk] at h2
        rw [h1, List.append_nil]
        rw [List.filter_filter]
        apply List.filter_congr
        intro z hz
        by_cases hzk : z.1 = k
        · simp [hzk, hk]
        · simp [hzk]
    refine ⟨j3, j2.trans ?_, j5⟩
    refine (List.Perm.append e3 s2).trans ?_
    rw [e4, e5]
    exact List.perm_append_comm.trans (List.filter_append_perm (fun e : (Nat × Nat) × T => decide (rk e.1.1 = rk e.1.2)) (data.flatten.filter fun e => decide (rk e.1.2 = r)))

/-- **C25, entries too large.** A rank with an entry that does not fit in one message throws; it never sends a truncated or partial message. -/
theorem C25_oversize_entry_throws (rk : Nat → Nat) (mx : Nat) (hmx : mx < 2 ^ 62) (h8 : 8 ≤ mx) (data : List SEnt) (hd : ∀ d ∈ data, d.2.length < 2 ^ 61) :
    prepComms rk mx data = .throws ↔ ∃ d ∈ data, mx < 32 + alignRepr d.2.length := by
  rcases prepComms_spec rk mx hmx h8 data hd with ⟨h1, h2⟩ | ⟨h1, cs, h2, -⟩
  · exact ⟨fun _ => h1, fun _ => h2⟩
  · constructor
    · intro h; rw [h2] at h; cases h
    · rintro ⟨d, hd', hb⟩
      have := h1 d hd'
      unfold entA at this; omega

/-- **C25, the case the hypothesis of `C25_exchange` excludes (defect).** The grouping compares the size without the 8 byte preamble with the limit:
a single entry whose size with headers lies in the last 8 bytes below the limit is accepted and serialized, and then building the table throws on
the sending and on the receiving rank, although a slightly larger entry would have been reported as too large. Holds for the default limit
2^31 - 2 as well. -/
theorem C25_prehead_defect (mx dev n : Nat) (hmx : mx < 2 ^ 31) (hn' : n < 2 ^ 61) (h1 : 32 + alignRepr n ≤ mx) (h2 : mx < 40 + alignRepr n) (env : SerEnv) (payload : List Byte)
    (hn : payload.length = n) :
    ∃ cs bytes, prepComms (fun i => i) mx [((0, 1), payload)] = .ok cs ∧ packAll (fun _ => env) 0 cs = .ok [bytes] ∧
      ∀ r < 2, buildTable [msgInfos cs [bytes], []] (commMaxAlloc dev mx) r = .throws := by
  have ha := alignRepr_bound n (by omega)
  have he : entSize ((0, 1), payload) = ⟨24, alignRepr n⟩ := by
    rw [entSize_eq _ (by show payload.length < _; omega)]; unfold entA; rw [hn]
  have htot : entsTotal [((0, 1), payload)] = 32 + alignRepr n := by
    unfold entsTotal entA; simp only [List.length_singleton, List.map_cons, List.map_nil, List.sum_cons, List.sum_nil, hn]; omega
  have hcs : prepComms (fun i => i) mx [((0, 1), payload)] = .ok [⟨0, 1, entsSize [((0, 1), payload)], [((0, 1), payload)]⟩] := by
    show grpAll mx [((0, 1), [((0, 1), payload)])] [] = _
    simp only [grpAll]
    rw [headSize_eq]
    obtain ⟨a1, a2, a3⟩ := add_size [] ((0, 1), payload) (by show payload.length < _; omega) (by decide)
    simp only [grpLoop, List.nil_append] at a1 a2 a3 ⊢
    rw [a2, htot, if_neg (by omega), a1]
    unfold addToRet
    rw [entsSize_total _ (by omega), htot, if_neg (by omega)]
    rfl
  obtain ⟨bytes, p1, p2, -⟩ := packComm_spec env ⟨0, 1, entsSize [((0, 1), payload)], [((0, 1), payload)]⟩ rfl
    (by intro e he; simp only [List.mem_singleton] at he; subst he; show payload.length < _; omega) (by show entsTotal [((0, 1), payload)] + 8 < _; omega)
  have p2' : bytes.length = 40 + alignRepr n := by rw [p2]; show entsTotal [((0, 1), payload)] + 8 = _; omega
  refine ⟨_, bytes, hcs, ?_, fun r hr => ?_⟩
  · simp only [packAll, p1, Res.bind]
  · have hma : commMaxAlloc dev mx ≤ mx := by unfold commMaxAlloc; split <;> omega
    refine C24_oversize_message_throws (commMaxAlloc dev mx) _ (by simp) ?_ ?_ (by simp [msgInfos]) ⟨bytes.length, 0, 1⟩ (by simp [msgInfos]) (by show _ < bytes.length; omega) r (by show 0 = r ∨ 1 = r; omega)
    · intro r l hl m hm
      match r, hl with
      | 0, hl =>
        simp only [List.getElem?_cons_zero, Option.some.injEq] at hl
        subst hl
        simp only [msgInfos, List.mem_singleton] at hm
        subst hm; rfl
      | 1, hl =>
        simp only [List.getElem?_cons_succ, List.getElem?_cons_zero, Option.some.injEq] at hl
        subst hl; simp at hm
    · intro l hl m hm
      simp only [msgInfos, List.mem_cons, List.not_mem_nil, or_false] at hl
      rcases hl with rfl | rfl
      · simp only [List.mem_singleton] at hm
        subst hm
        show 1 < 2 ∧ 0 < bytes.length ∧ bytes.length < 2 ^ 64
        omega
      · simp at hm

/-! ### Concrete cases -/

/-- Three ranks, ids 0..5 on rank `id % 3`: two entries for the same pair of ranks, an empty one, one for another rank; rank 1 sends nothing. -/
def exComm : List (List SEnt) := [[((0, 1), [1#8, 2#8]), ((0, 4), []), ((3, 2), [7#8])], [], [((5, 0), [9#8])]]

example : CommData (fun i => i % 3) exComm := by
  refine ⟨by decide, by decide, ?_, by decide, by decide⟩
  intro r l hl e he
  have hr : r < 3 := (List.getElem?_eq_some_iff.1 hl).1
  have h : ∀ r < 3, ∀ e ∈ (exComm[r]?).getD [], e.1.1 % 3 = r := by decide
  exact h r hr e (by rw [hl]; exact he)

example : ∀ l ∈ exComm, ∀ e ∈ l, 32 + alignRepr e.2.length ≤ 100 := by decide

example : prepComms (fun i => i % 3) 60 exComm[0] = .ok [⟨0, 1, ⟨32, 8⟩, [((0, 1), [1#8, 2#8])]⟩, ⟨0, 1, ⟨32, 0⟩, [((0, 4), [])]⟩, ⟨0, 2, ⟨32, 8⟩, [((3, 2), [7#8])]⟩] := by
  decide +kernel

example : ∀ l ∈ exComm, ∀ cs, prepComms (fun i => i % 3) 100 l = .ok cs → ∀ c ∈ cs, c.sz.total + 8 ≤ commMaxAlloc (2 ^ 40) 100 := by
  intro l hl cs h
  have hh : ∀ l ∈ exComm, (match prepComms (fun i => i % 3) 100 l with | .ok cs => cs.all fun c => decide (c.sz.total + 8 ≤ commMaxAlloc (2 ^ 40) 100) | _ => true) = true := by
    decide +kernel
  have := hh l hl
  rw [h] at this
  simpa using this

/-- The defect occurs with the default limit. -/
example : 32 + alignRepr 2147483608 ≤ 2147483646 ∧ 2147483646 < 40 + alignRepr 2147483608 := by decide

end Shamrock
