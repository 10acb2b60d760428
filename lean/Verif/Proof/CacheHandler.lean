import Verif.Model.CacheHandler
import Verif.Props.Containers
/-! Invariant of the cache handler. -/
namespace Shamrock

/-- Bytes an object takes on the device. -/
def DevObj.raw (o : DevObj) : Nat := o.cnt.hold + o.scan.hold + o.neigh.hold + 4

/-- Bytes taken by a map of objects. -/
def devSum (m : List (Nat × DevObj)) : Nat := (m.map fun kv => kv.2.raw).sum

/-- No object comes near the range of `u64`. -/
def OCEnv.Fits (E : OCEnv) : Prop :=
  ∀ t id, (E.gen t id).raw + E.max.toNat < 2 ^ 64 ∧ (DevObj.ofHost E.alloc (E.gen t id).toHost).raw + E.max.toNat < 2 ^ 64

/-- `h` is what a call of the generator for `id` made since the last reset returned. -/
def OCH.Made (E : OCEnv) (s : OCH) (id : Nat) (h : HostObj) : Prop :=
  ∃ t, s.epoch ≤ t ∧ s.calls[t]? = some id ∧ h = (E.gen t id).toHost

/-- What the handler holds for `id`, on the device or on the host. -/
def OCH.holds (s : OCH) (id : Nat) : Option HostObj := ((mfind s.cache id).map DevObj.toHost).or (mfind s.off id)

structure OCInv (E : OCEnv) (s : OCH) : Prop where
  mc : MapOk s.cache
  mo : MapOk s.off
  dis : ∀ id, mfind s.cache id ≠ none → mfind s.off id = none
  dev : s.dev.toNat = devSum s.cache
  le : devSum s.cache ≤ E.max.toNat
  dq : ∀ id, mfind s.cache id ≠ none → id ∈ s.dq
  co : ∀ id o, mfind s.cache id = some o → s.Made E id o.toHost ∧ o.raw + E.max.toNat < 2 ^ 64
  oo : ∀ id h, mfind s.off id = some h → s.Made E id h
  ep : s.epoch ≤ s.calls.length

theorem devSum_memplace (m : List (Nat × DevObj)) (q : Nat) (x : DevObj) (h : mfind m q = none) :
    devSum (memplace m q x).1 = devSum m + x.raw := by
  induction m with
  | nil => simp [memplace, devSum]
  | cons kv m ih =>
    obtain ⟨k, v⟩ := kv
    have hk : k ≠ q := by intro e; simp [mfind, e] at h
    have h' : mfind m q = none := by simpa [mfind, hk] using h
    simp only [memplace]
    split
    · simp [devSum]; omega
    · rw [if_neg (Ne.symm hk)]
      have := ih h'
      simp only [devSum, List.map_cons, List.sum_cons] at this ⊢
      omega

theorem devSum_merase (m : List (Nat × DevObj)) (q : Nat) (x : DevObj) (h : mfind m q = some x) :
    devSum (merase m q) + x.raw = devSum m := by
  induction m with
  | nil => simp [mfind] at h
  | cons kv m ih =>
    obtain ⟨k, v⟩ := kv
    by_cases hk : k = q
    · simp only [mfind, if_pos hk, Option.some.injEq] at h
      simp only [merase, if_pos hk, devSum, List.map_cons, List.sum_cons, h]; omega
    · simp only [mfind, if_neg hk] at h
      have := ih h
      simp only [merase, if_neg hk, devSum, List.map_cons, List.sum_cons] at this ⊢
      omega

theorem length_merase {V : Type} (m : List (Nat × V)) (q : Nat) (x : V) (h : mfind m q = some x) :
    (merase m q).length + 1 = m.length := by
  induction m with
  | nil => simp [mfind] at h
  | cons kv m ih =>
    obtain ⟨k, v⟩ := kv
    by_cases hk : k = q
    · simp [merase, hk]
    · simp only [mfind, if_neg hk] at h
      simp only [merase, if_neg hk, List.length_cons]
      have := ih h; omega

theorem devSum_ge (m : List (Nat × DevObj)) (q : Nat) (x : DevObj) (h : mfind m q = some x) : x.raw ≤ devSum m := by
  have := devSum_merase m q x h; omega

theorem memsize_toNat (o : DevObj) (h : o.raw < 2 ^ 64) : o.memsize.toNat = o.raw := by
  simp only [DevObj.memsize, BitVec.toNat_ofNat]; exact Nat.mod_eq_of_lt h

/-- One eviction: the deque loses a prefix of ids that are not cached, then a cached id, which goes to the host. -/
structure Evicts (s : OCH) (x : Nat) (o : DevObj) (s' : OCH) : Prop where
  had : mfind s.cache x = some o
  cache : s'.cache = merase s.cache x
  off : s'.off = (memplace s.off x o.toHost).1
  dev : s'.dev = s.dev - o.memsize
  calls : s'.calls = s.calls
  epoch : s'.epoch = s.epoch
  dq : ∃ pre, s.dq = pre ++ x :: s'.dq ∧ ∀ y ∈ pre, mfind s.cache y = none

theorem offload_go (E : OCEnv) (s : OCH) (H : OCInv E s) (hne : s.cache ≠ []) :
    ∀ (d pre : List Nat), s.dq = pre ++ d → (∀ y ∈ pre, mfind s.cache y = none) →
      (∃ x ∈ d, mfind s.cache x ≠ none) → ∃ x o s', offloadOldestGo s d = some (s', some ()) ∧ Evicts s x o s' := by
  have hempty : ddIsEmpty s.cache = false := by
    simp only [ddIsEmpty]; cases hc : s.cache with
    | nil => exact absurd hc hne
    | cons a b => rfl
  intro d
  induction d with
  | nil => intro pre _ _ hx; obtain ⟨x, hx, _⟩ := hx; exact absurd hx List.not_mem_nil
  | cons y d ih =>
    intro pre hpre hnc hx
    simp only [offloadOldestGo, hempty, Bool.false_eq_true, if_false]
    cases hy : mfind s.cache y with
    | none =>
      have hk : ddHasKey s.cache y = false := by simp [ddHasKey, hy]
      rw [hk]
      simp only [Bool.false_eq_true, if_false]
      refine ih (pre ++ [y]) (by simp [hpre]) ?_ ?_
      · intro z hz
        rcases List.mem_append.1 hz with hz | hz
        · exact hnc z hz
        · rw [List.mem_singleton.1 hz]; exact hy
      · obtain ⟨x, hxm, hxc⟩ := hx
        rcases List.mem_cons.1 hxm with e | hxm
        · rw [e] at hxc; exact absurd hy hxc
        · exact ⟨x, hxm, hxc⟩
    | some o =>
      have hk : ddHasKey s.cache y = true := by simp [ddHasKey, hy]
      have hoff : mfind s.off y = none := H.dis y (by rw [hy]; simp)
      have hins : (memplace s.off y o.toHost).2 = true := by
        rw [(memplace_spec s.off H.mo y o.toHost).2.1, hoff]; rfl
      rw [hk]
      refine ⟨y, o, ⟨merase s.cache y, (memplace s.off y o.toHost).1, d, s.dev - o.memsize, s.host + o.toHost.memsize, s.calls, s.epoch⟩, ?_,
        ⟨hy, rfl, rfl, rfl, rfl, rfl, ⟨pre, hpre, hnc⟩⟩⟩
      simp [offloadEntry, popCache, ddGet, hy, OCRes.andThen, pushOffload, ddAddObj, hins, ddErase]

theorem cache_key {m : List (Nat × DevObj)} (h : m ≠ []) : ∃ x, mfind m x ≠ none := by
  cases m with
  | nil => exact absurd rfl h
  | cons kv m => exact ⟨kv.1, by simp [mfind]⟩

theorem offload_oldest_ok (E : OCEnv) (s : OCH) (H : OCInv E s) (hne : s.cache ≠ []) :
    ∃ x o s', offloadOldest s = some (s', some ()) ∧ Evicts s x o s' := by
  obtain ⟨x, hx⟩ := cache_key hne
  exact offload_go E s H hne s.dq [] rfl (fun _ h => absurd h List.not_mem_nil) ⟨x, H.dq x hx, hx⟩

theorem evicts_inv {E : OCEnv} {s s' : OCH} {x : Nat} {o : DevObj} (H : OCInv E s) (V : Evicts s x o s') :
    OCInv E s' ∧ devSum s'.cache + o.raw = devSum s.cache ∧ s'.cache.length + 1 = s.cache.length ∧
    (∀ id, s'.holds id = s.holds id) ∧ (∀ id p, mfind s'.cache id = some p → mfind s.cache id = some p) ∧
    (∀ id, mfind s.cache id = none → mfind s'.off id = mfind s.off id) := by
  obtain ⟨had, hc, ho, hd, hcalls, hep, pre, hdq, hpre⟩ := V
  have hoff : mfind s.off x = none := H.dis x (by rw [had]; simp)
  obtain ⟨e1, e2, -⟩ := merase_spec s.cache H.mc x
  obtain ⟨p1, -, p3, -⟩ := memplace_spec s.off H.mo x o.toHost
  have hsum := devSum_merase s.cache x o had
  have hlen := length_merase s.cache x o had
  have hfc : ∀ id, mfind s'.cache id = if id = x then none else mfind s.cache id := fun id => by rw [hc, e2]
  have hfo : ∀ id, mfind s'.off id = if id = x then some o.toHost else mfind s.off id := fun id => by
    rw [ho, p3]
    by_cases h : id = x
    · rw [if_pos ⟨h, hoff⟩, if_pos h]
    · rw [if_neg (fun c => h c.1), if_neg h]
  have hmade : ∀ id h, s.Made E id h → s'.Made E id h := by
    rintro id h ⟨t, h1, h2, h3⟩; exact ⟨t, by rw [hep]; exact h1, by rw [hcalls]; exact h2, h3⟩
  have hraw : o.raw < 2 ^ 64 := by have := (H.co x o had).2; omega
  refine ⟨⟨?_, ?_, ?_, ?_, ?_, ?_, ?_, ?_, ?_⟩, by rw [hc]; exact hsum, by rw [hc]; exact hlen, ?_, ?_, ?_⟩
  · rw [hc]; exact e1
  · rw [ho]; exact p1
  · intro id hid
    rw [hfc] at hid; rw [hfo]
    split at hid
    · exact absurd rfl hid
    · rename_i hne; rw [if_neg hne]; exact H.dis id hid
  · have h1 := H.dev
    have h2 := memsize_toNat o hraw
    rw [hd, BitVec.toNat_sub, h1, h2, hc]
    have hm : devSum s.cache < 2 ^ 64 := by have := s.dev.isLt; omega
    have : 2 ^ 64 - o.raw + devSum s.cache = 2 ^ 64 + devSum (merase s.cache x) := by omega
    rw [this, Nat.add_mod_left, Nat.mod_eq_of_lt]
    omega
  · rw [hc]; have := H.le; omega
  · intro id hid
    rw [hfc] at hid
    split at hid
    · exact absurd rfl hid
    · rename_i hne
      have := H.dq id hid
      rw [hdq] at this
      rcases List.mem_append.1 this with h | h
      · exact absurd (hpre id h) hid
      · rcases List.mem_cons.1 h with h | h
        · exact absurd h hne
        · exact h
  · intro id p hp
    rw [hfc] at hp
    split at hp
    · simp at hp
    · exact ⟨hmade _ _ (H.co id p hp).1, (H.co id p hp).2⟩
  · intro id h hp
    rw [hfo] at hp
    split at hp
    · rename_i e
      rw [Option.some.injEq] at hp
      rw [e, ← hp]; exact hmade _ _ (H.co x o had).1
    · exact hmade _ _ (H.oo id h hp)
  · rw [hep, hcalls]; exact H.ep
  · intro id
    simp only [OCH.holds, hfc, hfo]
    by_cases h : id = x
    · simp [h, had]
    · simp [h]
  · intro id p hp
    rw [hfc] at hp
    split at hp
    · simp at hp
    · exact hp
  · intro id hid
    rw [hfo, if_neg]
    intro e; rw [e, had] at hid; simp at hid

/-- The handler sheds objects to the host, and nothing else. -/
structure Sheds (s s' : OCH) : Prop where
  holds : ∀ id, s'.holds id = s.holds id
  sub : ∀ id p, mfind s'.cache id = some p → mfind s.cache id = some p
  off : ∀ id, mfind s.cache id = none → mfind s'.off id = mfind s.off id
  calls : s'.calls = s.calls
  epoch : s'.epoch = s.epoch

theorem Sheds.refl (s : OCH) : Sheds s s := ⟨fun _ => rfl, fun _ _ h => h, fun _ _ => rfl, rfl, rfl⟩

theorem sheds_none {s s' : OCH} (h : Sheds s s') {id : Nat} (hn : mfind s.cache id = none) : mfind s'.cache id = none := by
  cases hc : mfind s'.cache id with
  | none => rfl
  | some p => rw [h.sub id p hc] at hn; simp at hn

theorem Sheds.trans {s1 s2 s3 : OCH} (h1 : Sheds s1 s2) (h2 : Sheds s2 s3) : Sheds s1 s3 :=
  ⟨fun id => (h2.holds id).trans (h1.holds id), fun id p h => h1.sub id p (h2.sub id p h),
    fun id h => (h2.off id (sheds_none h1 h)).trans (h1.off id h), h2.calls.trans h1.calls, h2.epoch.trans h1.epoch⟩

theorem room_lt (E : OCEnv) (s : OCH) (H : OCInv E s) (c : DevObj) (hc : c.raw + E.max.toNat < 2 ^ 64) :
    (E.max < c.memsize + s.dev) ↔ E.max.toNat < c.raw + devSum s.cache := by
  have h2 := memsize_toNat c (by omega)
  have hl := H.le
  rw [BitVec.lt_def, BitVec.toNat_add, h2, H.dev, Nat.mod_eq_of_lt (by omega)]

/-- The loop that makes room: it ends with enough room, or with an empty device cache and an object larger than the limit. -/
theorem makeRoom_ok (E : OCEnv) (c : DevObj) (hc : c.raw + E.max.toNat < 2 ^ 64) :
    ∀ (fuel : Nat) (s : OCH), OCInv E s → s.cache.length < fuel → ∃ s' r, makeRoom E c.memsize fuel s = some (s', r) ∧ OCInv E s' ∧ Sheds s s' ∧
      ((r = some () ∧ c.raw ≤ E.max.toNat ∧ c.raw + devSum s'.cache ≤ E.max.toNat) ∨ (r = none ∧ E.max.toNat < c.raw ∧ s'.cache = [])) := by
  intro fuel
  induction fuel with
  | zero => intro s _ h; omega
  | succ fuel ih =>
    intro s H hl
    simp only [makeRoom]
    by_cases hroom : E.max < c.memsize + s.dev
    · have hroom' := (room_lt E s H c hc).1 hroom
      rw [if_pos hroom]
      by_cases he : s.cache = []
      · have : ddIsEmpty s.cache = true := by simp [ddIsEmpty, he]
        rw [if_pos this]
        refine ⟨s, none, rfl, H, Sheds.refl s, Or.inr ⟨rfl, ?_, he⟩⟩
        simpa [he, devSum] using hroom'
      · have : ddIsEmpty s.cache = false := by simp [ddIsEmpty, he]
        rw [this]
        obtain ⟨x, o, s1, hrun, V⟩ := offload_oldest_ok E s H he
        obtain ⟨H1, hs1, hl1, hh1, hs2, ho1⟩ := evicts_inv H V
        rw [hrun]
        simp only [OCRes.andThen, Bool.false_eq_true, if_false]
        obtain ⟨s', r, e, H', S', hr⟩ := ih s1 H1 (by omega)
        exact ⟨s', r, e, H', Sheds.trans ⟨hh1, hs2, ho1, V.calls, V.epoch⟩ S', hr⟩
    · have hroom' : ¬ E.max.toNat < c.raw + devSum s.cache := fun h => hroom ((room_lt E s H c hc).2 h)
      rw [if_neg hroom]
      exact ⟨s, some (), rfl, H, Sheds.refl s, Or.inl ⟨rfl, by omega, by omega⟩⟩

/-- The object a miss loads: the one on the host if there is one, what the generator returns otherwise. -/
def OCH.next (E : OCEnv) (s : OCH) (id : Nat) : DevObj :=
  match mfind s.off id with
  | some h => DevObj.ofHost E.alloc h
  | none => E.gen s.calls.length id

/-- The handler once the object has been taken from the host or from the generator. -/
def OCH.taken (E : OCEnv) (s : OCH) (id : Nat) : OCH :=
  match mfind s.off id with
  | some h => { s with off := merase s.off id, host := s.host - (DevObj.ofHost E.alloc h).memsize }
  | none => { s with calls := s.calls ++ [id] }

theorem loadOrBuild_ok (E : OCEnv) (s : OCH) (id : Nat) : loadOrBuild E s id = some (s.taken E id, some (s.next E id)) := by
  rcases h : mfind s.off id with _ | g <;>
    simp [loadOrBuild, ddHasKey, popOffload, ddGet, ddErase, OCH.taken, OCH.next, h]

theorem toHost_ofHost (alloc : Nat → Nat) (h : HostObj) : (DevObj.ofHost alloc h).toHost = h := rfl

theorem taken_inv (E : OCEnv) (F : E.Fits) (s : OCH) (H : OCInv E s) (id : Nat) (hid : mfind s.cache id = none) :
    OCInv E (s.taken E id) ∧ (s.taken E id).Made E id (s.next E id).toHost ∧ (s.next E id).raw + E.max.toNat < 2 ^ 64 ∧
    mfind (s.taken E id).off id = none ∧ (s.taken E id).cache = s.cache ∧ (∀ k, k ≠ id → mfind (s.taken E id).off k = mfind s.off k) := by
  cases ho : mfind s.off id with
  | some h =>
    obtain ⟨e1, e2, -⟩ := merase_spec s.off H.mo id
    have hm := H.oo id h ho
    have ht : s.taken E id = { s with off := merase s.off id, host := s.host - (DevObj.ofHost E.alloc h).memsize } := by
      simp only [OCH.taken, ho]
    have hn : s.next E id = DevObj.ofHost E.alloc h := by simp only [OCH.next, ho]
    rw [ht, hn]
    refine ⟨⟨H.mc, e1, ?_, H.dev, H.le, H.dq, H.co, ?_, H.ep⟩, ?_, ?_, ?_, rfl, ?_⟩
    · intro k hk
      show mfind (merase s.off id) k = none
      rw [e2]; split
      · rfl
      · exact H.dis k hk
    · intro k g hg
      have hg : mfind (merase s.off id) k = some g := hg
      rw [e2] at hg
      split at hg
      · simp at hg
      · exact H.oo k g hg
    · exact hm
    · obtain ⟨t, -, -, e⟩ := hm
      rw [e]; exact (F t id).2
    · show mfind (merase s.off id) id = none
      rw [e2, if_pos rfl]
    · intro k hk
      show mfind (merase s.off id) k = mfind s.off k
      rw [e2, if_neg hk]
  | none =>
    have ht : s.taken E id = { s with calls := s.calls ++ [id] } := by simp only [OCH.taken, ho]
    have hn : s.next E id = E.gen s.calls.length id := by simp only [OCH.next, ho]
    have hmade : ∀ k g, s.Made E k g → ({ s with calls := s.calls ++ [id] } : OCH).Made E k g := by
      rintro k g ⟨t, h1, h2, h3⟩
      refine ⟨t, h1, ?_, h3⟩
      show (s.calls ++ [id])[t]? = some k
      rw [List.getElem?_append_left ((List.getElem?_eq_some_iff.1 h2).1)]; exact h2
    rw [ht, hn]
    refine ⟨⟨H.mc, H.mo, H.dis, H.dev, H.le, H.dq, fun k o h => ⟨hmade _ _ (H.co k o h).1, (H.co k o h).2⟩,
      fun k g h => hmade _ _ (H.oo k g h), ?_⟩, ⟨s.calls.length, H.ep, ?_, rfl⟩, (F _ _).1, ho, rfl, fun _ _ => rfl⟩
    · show s.epoch ≤ (s.calls ++ [id]).length
      have := H.ep
      simp; omega
    · show (s.calls ++ [id])[s.calls.length]? = some id
      simp

/-- A miss, when the object fits. -/
structure Loads (E : OCEnv) (s : OCH) (id : Nat) (s' : OCH) : Prop where
  inv : OCInv E s'
  calls : s'.calls = (s.taken E id).calls
  epoch : s'.epoch = s.epoch
  holds : ∀ k, k ≠ id → s'.holds k = s.holds k

theorem taken_epoch (E : OCEnv) (s : OCH) (id : Nat) : (s.taken E id).epoch = s.epoch := by
  simp only [OCH.taken]; split <;> rfl

theorem get_miss (E : OCEnv) (F : E.Fits) (s : OCH) (H : OCInv E s) (id : Nat) (hid : mfind s.cache id = none) :
    ∃ s', Loads E s id s' ∧
      (((s.next E id).raw ≤ E.max.toNat ∧ ocGet E s id = some (s', some (s.next E id)) ∧ mfind s'.cache id = some (s.next E id)) ∨
        (E.max.toNat < (s.next E id).raw ∧ ocGet E s id = some (s', none) ∧ s'.holds id = none ∧ s'.cache = [])) := by
  obtain ⟨Ht, hmade, hraw, hoff, hcache, hoth⟩ := taken_inv E F s H id hid
  obtain ⟨s1, r, hrun, H1, S1, hr⟩ := makeRoom_ok E (s.next E id) hraw ((s.taken E id).cache.length + 1) (s.taken E id) Ht (by omega)
  have hcid : mfind (s.taken E id).cache id = none := by rw [hcache]; exact hid
  have h1c := sheds_none S1 hcid
  have h1o : mfind s1.off id = none := by rw [S1.off id hcid]; exact hoff
  have hold1 : ∀ k, k ≠ id → s1.holds k = s.holds k := by
    intro k hk
    rw [S1.holds k]
    simp only [OCH.holds, hcache, hoth k hk]
  have hk : ddHasKey s.cache id = false := by simp [ddHasKey, hid]
  have hep : s1.epoch = s.epoch := S1.epoch.trans (taken_epoch E s id)
  rcases hr with ⟨hr, hfit, hroom⟩ | ⟨hr, hbig, hemp⟩
  · obtain ⟨p1, p2, p3, -⟩ := memplace_spec s1.cache H1.mc id (s.next E id)
    have hins : (memplace s1.cache id (s.next E id)).2 = true := by rw [p2, h1c]; rfl
    have hnl : ¬ E.max < (s.next E id).memsize + s1.dev := fun h => by
      have := (room_lt E s1 H1 (s.next E id) hraw).1 h; omega
    let s' : OCH := ⟨(memplace s1.cache id (s.next E id)).1, s1.off, s1.dq ++ [id] ++ [id], s1.dev + (s.next E id).memsize, s1.host,
      s1.calls, s1.epoch⟩
    have hfc : ∀ k, mfind s'.cache k = if k = id then some (s.next E id) else mfind s1.cache k := by
      intro k
      show mfind (memplace s1.cache id (s.next E id)).1 k = _
      rw [p3]
      by_cases h : k = id
      · rw [if_pos ⟨h, h1c⟩, if_pos h]
      · rw [if_neg (fun c => h c.1), if_neg h]
    have hsum : devSum s'.cache = devSum s1.cache + (s.next E id).raw := devSum_memplace _ _ _ h1c
    refine ⟨s', ⟨⟨p1, H1.mo, ?_, ?_, ?_, ?_, ?_, ?_, H1.ep⟩, S1.calls, hep, ?_⟩, Or.inl ⟨hfit, ?_, ?_⟩⟩
    · intro k hkc
      rw [hfc] at hkc
      by_cases h : k = id
      · rw [h]; exact h1o
      · rw [if_neg h] at hkc; exact H1.dis k hkc
    · show (s1.dev + (s.next E id).memsize).toNat = _
      rw [hsum, BitVec.toNat_add, H1.dev, memsize_toNat _ (by omega), Nat.mod_eq_of_lt (by omega)]
    · rw [hsum]; omega
    · intro k hkc
      show k ∈ s1.dq ++ [id] ++ [id]
      rw [hfc] at hkc
      by_cases h : k = id
      · simp [h]
      · rw [if_neg h] at hkc
        simp [H1.dq k hkc]
    · intro k o hko
      rw [hfc] at hko
      by_cases h : k = id
      · rw [if_pos h, Option.some.injEq] at hko
        rw [h, ← hko]
        refine ⟨?_, hraw⟩
        obtain ⟨t, m1, m2, m3⟩ := hmade
        exact ⟨t, by show s1.epoch ≤ t; rw [S1.epoch]; exact m1, by show s1.calls[t]? = _; rw [S1.calls]; exact m2, m3⟩
      · rw [if_neg h] at hko; exact H1.co k o hko
    · exact fun k h hh => H1.oo k h hh
    · intro k hkn
      rw [← hold1 k hkn]
      simp only [OCH.holds, hfc, if_neg hkn]; rfl
    · simp only [ocGet, hk, Bool.false_eq_true, if_false, ocBuild, loadOrBuild_ok, OCRes.andThen, hrun, hr, pushNew, if_neg hnl, pushCache,
        ddAddObj, hins, Bool.not_true, ddGet]
      rw [show mfind (memplace s1.cache id (s.next E id)).1 id = some (s.next E id) from by have := hfc id; rwa [if_pos rfl] at this]
    · rw [hfc, if_pos rfl]
  · refine ⟨s1, ⟨H1, S1.calls, hep, hold1⟩, Or.inr ⟨hbig, ?_, ?_, hemp⟩⟩
    · simp only [ocGet, hk, Bool.false_eq_true, if_false, ocBuild, loadOrBuild_ok, OCRes.andThen, hrun, hr]
    · simp only [OCH.holds, h1c, h1o]; rfl

theorem get_hit (E : OCEnv) (s : OCH) (id : Nat) (o : DevObj) (h : mfind s.cache id = some o) : ocGet E s id = some (s, some o) := by
  simp [ocGet, ddHasKey, ddGet, h]

theorem init_inv (E : OCEnv) : OCInv E OCH.init := by
  constructor <;> simp [OCH.init, MapOk, mfind, devSum]

theorem reset_inv (E : OCEnv) (s : OCH) : OCInv E (ocReset s) := by
  constructor <;> simp [ocReset, MapOk, mfind, devSum]

/-- Every call leads from a good state to a good state. -/
theorem step_inv (E : OCEnv) (F : E.Fits) (s : OCH) (H : OCInv E s) (op : OCOp) : ∃ s' r, ocStep E s op = some (s', r) ∧ OCInv E s' := by
  cases op with
  | reset => exact ⟨ocReset s, none, rfl, reset_inv E s⟩
  | get id =>
    rcases hc : mfind s.cache id with _ | o
    · obtain ⟨s', L, h | h⟩ := get_miss E F s H id hc
      · exact ⟨s', _, h.2.1, L.inv⟩
      · exact ⟨s', _, h.2.1, L.inv⟩
    · exact ⟨s, some o, get_hit E s id o hc, H⟩

theorem oc_run_inv (E : OCEnv) (F : E.Fits) : ∀ (ops : List OCOp) (s : OCH), OCInv E s → ∃ s' rs, ocRun E s ops = some (s', rs) ∧ OCInv E s' := by
  intro ops
  induction ops with
  | nil => intro s H; exact ⟨s, [], rfl, H⟩
  | cons op ops ih =>
    intro s H
    obtain ⟨s1, r, e, H1⟩ := step_inv E F s H op
    obtain ⟨s2, rs, e2, H2⟩ := ih s1 H1
    exact ⟨s2, r :: rs, by simp [ocRun, e, e2], H2⟩

end Shamrock
