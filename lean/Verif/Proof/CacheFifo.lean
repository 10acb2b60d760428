import Verif.Proof.CacheHandler
/-! Order of the evictions of the cache handler. -/
namespace Shamrock

/-- Sum of the sizes in a queue of pairs (id, size). -/
def qTotal (q : List (Nat × Nat)) : Nat := (q.map Prod.snd).sum

/-- Drop entries from the front until `new` more bytes fit. -/
def fifoDrop (max new : Nat) : List (Nat × Nat) → List (Nat × Nat)
  | [] => []
  | e :: q => if new + qTotal (e :: q) ≤ max then e :: q else fifoDrop max new q

/-- Every id of the queue twice. -/
def dup2 (q : List (Nat × Nat)) : List Nat := q.flatMap fun e => [e.1, e.1]

theorem first_split {α : Type} {P : α → Prop} : ∀ (p p0 l l' : List α) (a x : α), p ++ a :: l = p0 ++ x :: l' → (∀ y ∈ p, P y) → (∀ y ∈ p0, P y) →
    ¬ P a → ¬ P x → p = p0 ∧ a = x ∧ l = l' := by
  intro p
  induction p with
  | nil =>
    intro p0 l l' a x h _ h0 ha _
    cases p0 with
    | nil => simp at h; exact ⟨rfl, h⟩
    | cons y p0 =>
      simp at h
      exact absurd (h0 y List.mem_cons_self) (h.1 ▸ ha)
  | cons y p ih =>
    intro p0 l l' a x h hp h0 ha hx
    cases p0 with
    | nil =>
      simp at h
      exact absurd (hp y List.mem_cons_self) (h.1.symm ▸ hx)
    | cons z p0 =>
      simp only [List.cons_append, List.cons.injEq] at h
      obtain ⟨e1, e2, e3⟩ := ih p0 l l' a x h.2 (fun y hy => hp y (List.mem_cons_of_mem _ hy)) (fun y hy => h0 y (List.mem_cons_of_mem _ hy)) ha hx
      exact ⟨by rw [h.1, e1], e2, e3⟩

/-- The queue `q` lists the cached objects and the deque is `pre` followed by `q` with every id twice. -/
structure FW (E : OCEnv) (s : OCH) (q : List (Nat × Nat)) (pre : List Nat) : Prop where
  dq : s.dq = pre ++ dup2 q
  stale : ∀ y ∈ pre, mfind s.cache y = none
  nod : (q.map Prod.fst).Nodup
  inq : ∀ id o, mfind s.cache id = some o → (id, o.raw) ∈ q
  inc : ∀ e ∈ q, ∃ o, mfind s.cache e.1 = some o ∧ o.raw = e.2
  tot : qTotal q = devSum s.cache
  same : ∀ id o, mfind s.cache id = some o → (DevObj.ofHost E.alloc o.toHost).raw = o.raw

theorem fw_evict {E : OCEnv} {s s' : OCH} {e : Nat × Nat} {q : List (Nat × Nat)} {pre : List Nat} {x : Nat} {o : DevObj} (H : OCInv E s)
    (W : FW E s (e :: q) pre) (V : Evicts s x o s') :
    x = e.1 ∧ o.raw = e.2 ∧ FW E s' q [x] ∧ mfind s'.off x = some o.toHost ∧ (DevObj.ofHost E.alloc o.toHost).raw = o.raw := by
  obtain ⟨-, hsum, -, -, hsub, -⟩ := evicts_inv H V
  obtain ⟨had, hc, ho, hd, hcalls, hep, pre0, hdq, hpre⟩ := V
  obtain ⟨oe, he, hraw⟩ := W.inc e List.mem_cons_self
  have hsplit : pre ++ e.1 :: (e.1 :: dup2 q) = pre0 ++ x :: s'.dq := by
    rw [← hdq, W.dq]; simp [dup2]
  obtain ⟨-, hx, hrest⟩ := first_split (P := fun y => mfind s.cache y = none) _ _ _ _ _ _ hsplit W.stale hpre (by rw [he]; simp) (by rw [had]; simp)
  have hoe : oe = o := by rw [hx, had] at he; exact (Option.some.inj he).symm
  rw [hoe] at hraw
  obtain ⟨e1, e2, -⟩ := merase_spec s.cache H.mc x
  have hoff : mfind s.off x = none := H.dis x (by rw [had]; simp)
  have p3 := (memplace_spec s.off H.mo x o.toHost).2.2.1
  have hn := W.nod
  rw [List.map_cons, List.nodup_cons] at hn
  refine ⟨hx.symm, hraw, ⟨?_, ?_, hn.2, ?_, ?_, ?_, ?_⟩, ?_, W.same x o had⟩
  · rw [← hrest, hx]; rfl
  · intro y hy
    rw [List.mem_singleton.1 hy, hc, e2, if_pos rfl]
  · intro id p hp
    have hid : id ≠ x := by intro e; rw [e, hc, e2, if_pos rfl] at hp; simp at hp
    have := W.inq id p (hsub id p hp)
    rcases List.mem_cons.1 this with h | h
    · rw [← hx, ← h] at hid; exact absurd rfl hid
    · exact h
  · intro f hf
    obtain ⟨p, hp, hpr⟩ := W.inc f (List.mem_cons_of_mem _ hf)
    refine ⟨p, ?_, hpr⟩
    rw [hc, e2, if_neg, hp]
    intro h
    exact hn.1 (List.mem_map.2 ⟨f, hf, by rw [h, hx]⟩)
  · have := W.tot
    simp only [qTotal, List.map_cons, List.sum_cons] at this ⊢
    omega
  · intro id p hp; exact W.same id p (hsub id p hp)
  · rw [ho, p3, if_pos ⟨rfl, hoff⟩]

theorem fw_nil {E : OCEnv} {s : OCH} {pre : List Nat} (W : FW E s [] pre) : s.cache = [] := by
  cases hc : s.cache with
  | nil => rfl
  | cons kv m =>
    have := W.inq kv.1 kv.2 (by rw [hc]; simp [mfind])
    exact absurd this List.not_mem_nil

/-- The loop that makes room drops objects in the order of the queue. -/
theorem makeRoom_fifo (E : OCEnv) (c : DevObj) (hc : c.raw + E.max.toNat < 2 ^ 64) :
    ∀ (fuel : Nat) (s s' : OCH) (q : List (Nat × Nat)) (pre : List Nat), OCInv E s → FW E s q pre →
      makeRoom E c.memsize fuel s = some (s', some ()) →
      (s' = s ∧ fifoDrop E.max.toNat c.raw q = q) ∨
      (∃ x h, FW E s' (fifoDrop E.max.toNat c.raw q) [x] ∧ mfind s'.off x = some h ∧ mfind s.cache x ≠ none ∧
        E.max.toNat < (DevObj.ofHost E.alloc h).raw + (c.raw + qTotal (fifoDrop E.max.toNat c.raw q))) := by
  intro fuel
  induction fuel with
  | zero => intro s s' q pre _ _ h; simp [makeRoom] at h
  | succ fuel ih =>
    intro s s' q pre H W hrun
    simp only [makeRoom] at hrun
    by_cases hroom : E.max < c.memsize + s.dev
    · have hroom' := (room_lt E s H c hc).1 hroom
      rw [if_pos hroom] at hrun
      cases q with
      | nil =>
        have : ddIsEmpty s.cache = true := by simp [ddIsEmpty, fw_nil W]
        rw [if_pos this] at hrun
        simp at hrun
      | cons e q =>
        obtain ⟨oe, he, -⟩ := W.inc e List.mem_cons_self
        have hne : s.cache ≠ [] := by intro h; rw [h] at he; simp [mfind] at he
        have : ddIsEmpty s.cache = false := by simp [ddIsEmpty, hne]
        rw [this] at hrun
        obtain ⟨x, o, s1, hrun1, V⟩ := offload_oldest_ok E s H hne
        obtain ⟨H1, hs1, hl1, hh1, hs2, ho1⟩ := evicts_inv H V
        obtain ⟨hx, hor, W1, hoff, hsame⟩ := fw_evict H W V
        rw [hrun1] at hrun
        simp only [OCRes.andThen, Bool.false_eq_true, if_false] at hrun
        have hdrop : fifoDrop E.max.toNat c.raw (e :: q) = fifoDrop E.max.toNat c.raw q := by
          have hT := W.tot
          simp only [fifoDrop]
          rw [if_neg]; omega
        rw [hdrop]
        right
        rcases ih s1 s' q [x] H1 W1 hrun with ⟨e1, e2⟩ | ⟨x', h', W', h1, h2, h3⟩
        · rw [e2, e1]
          refine ⟨x, o.toHost, W1, hoff, by rw [V.had]; simp, ?_⟩
          have hT := W1.tot
          omega
        · refine ⟨x', h', W', h1, ?_, h3⟩
          intro hn
          apply h2
          cases hc' : mfind s1.cache x' with
          | none => rfl
          | some p => rw [hs2 x' p hc'] at hn; simp at hn
    · have hroom' : ¬ E.max.toNat < c.raw + devSum s.cache := fun h => hroom ((room_lt E s H c hc).2 h)
      rw [if_neg hroom] at hrun
      simp only [Option.some.injEq, Prod.mk.injEq, and_true] at hrun
      left
      refine ⟨hrun.symm, ?_⟩
      cases q with
      | nil => rfl
      | cons e q =>
        have hT := W.tot
        simp only [fifoDrop]
        rw [if_pos]; omega

/-- The deque has at most one stale entry in front, and its object would not fit without an eviction. -/
def FInv (E : OCEnv) (s : OCH) (q : List (Nat × Nat)) : Prop :=
  ∃ pre, FW E s q pre ∧ (pre = [] ∨ ∃ x h, pre = [x] ∧ mfind s.off x = some h ∧ E.max.toNat < (DevObj.ofHost E.alloc h).raw + qTotal q)

theorem finv_init (E : OCEnv) (calls : List Nat) (ep : Nat) : FInv E ⟨[], [], [], 0, 0, calls, ep⟩ [] :=
  ⟨[], ⟨rfl, fun _ h => absurd h List.not_mem_nil, List.nodup_nil, fun _ _ h => by simp [mfind] at h, fun _ h => absurd h List.not_mem_nil,
    rfl, fun _ _ h => by simp [mfind] at h⟩, Or.inl rfl⟩

/-- Reloading an object takes as much memory as it took first. -/
def OCEnv.Exact (E : OCEnv) : Prop := ∀ t id, (DevObj.ofHost E.alloc (E.gen t id).toHost).raw = (E.gen t id).raw

theorem finv_get (E : OCEnv) (F : E.Fits) (X : E.Exact) (s s' : OCH) (H : OCInv E s) (q : List (Nat × Nat)) (Q : FInv E s q) (id : Nat)
    (o : DevObj) (hid : mfind s.cache id = none) (hrun : ocGet E s id = some (s', some o)) :
    FInv E s' (fifoDrop E.max.toNat o.raw q ++ [(id, o.raw)]) := by
  obtain ⟨Ht, hmade, hraw, hoff, hcache, hoth⟩ := taken_inv E F s H id hid
  obtain ⟨s1, r, hr1, H1, S1, hr⟩ := makeRoom_ok E (s.next E id) hraw ((s.taken E id).cache.length + 1) (s.taken E id) Ht (by omega)
  have hcid : mfind (s.taken E id).cache id = none := by rw [hcache]; exact hid
  have h1c := sheds_none S1 hcid
  have hk : ddHasKey s.cache id = false := by simp [ddHasKey, hid]
  rcases hr with ⟨hr, hfit, hroom⟩ | ⟨hr, hbig, hemp⟩
  swap
  · simp only [ocGet, hk, Bool.false_eq_true, if_false, ocBuild, loadOrBuild_ok, OCRes.andThen, hr1, hr] at hrun
    simp at hrun
  obtain ⟨p1, p2, p3, -⟩ := memplace_spec s1.cache H1.mc id (s.next E id)
  have hins : (memplace s1.cache id (s.next E id)).2 = true := by rw [p2, h1c]; rfl
  have hnl : ¬ E.max < (s.next E id).memsize + s1.dev := fun h => by
    have := (room_lt E s1 H1 (s.next E id) hraw).1 h; omega
  have hfc : ∀ k, mfind (memplace s1.cache id (s.next E id)).1 k = if k = id then some (s.next E id) else mfind s1.cache k := by
    intro k
    rw [p3]
    by_cases h : k = id
    · rw [if_pos ⟨h, h1c⟩, if_pos h]
    · rw [if_neg (fun c => h c.1), if_neg h]
  have hrun' : ocGet E s id = some (⟨(memplace s1.cache id (s.next E id)).1, s1.off, s1.dq ++ [id] ++ [id], s1.dev + (s.next E id).memsize, s1.host,
      s1.calls, s1.epoch⟩, some (s.next E id)) := by
    simp only [ocGet, hk, Bool.false_eq_true, if_false, ocBuild, loadOrBuild_ok, OCRes.andThen, hr1, hr, pushNew, if_neg hnl, pushCache,
        ddAddObj, hins, Bool.not_true, ddGet]
    rw [show mfind (memplace s1.cache id (s.next E id)).1 id = some (s.next E id) from by have := hfc id; rwa [if_pos rfl] at this]
  rw [hrun', Option.some.injEq, Prod.mk.injEq, Option.some.injEq] at hrun
  obtain ⟨rfl, rfl⟩ := hrun
  obtain ⟨pre, W, hpre⟩ := Q
  have hdq : (s.taken E id).dq = s.dq := by simp only [OCH.taken]; split <;> rfl
  have Wt : FW E (s.taken E id) q pre := by
    refine ⟨by rw [hdq]; exact W.dq, ?_, W.nod, ?_, ?_, ?_, ?_⟩
    · rw [hcache]; exact W.stale
    · rw [hcache]; exact W.inq
    · rw [hcache]; exact W.inc
    · rw [hcache]; exact W.tot
    · rw [hcache]; exact W.same
  have hsame : (DevObj.ofHost E.alloc (s.next E id).toHost).raw = (s.next E id).raw := by
    simp only [OCH.next]
    cases mfind s.off id with
    | none => exact X _ _
    | some h => rfl
  have push : ∀ (q' : List (Nat × Nat)) (pre' : List Nat), FW E s1 q' pre' → (∀ y ∈ pre', y ≠ id) →
      FW E ⟨(memplace s1.cache id (s.next E id)).1, s1.off, s1.dq ++ [id] ++ [id], s1.dev + (s.next E id).memsize, s1.host, s1.calls, s1.epoch⟩
        (q' ++ [(id, (s.next E id).raw)]) pre' := by
    intro q' pre' W' hpre'
    refine ⟨?_, ?_, ?_, ?_, ?_, ?_, ?_⟩
    · show s1.dq ++ [id] ++ [id] = _
      rw [W'.dq]; simp [dup2]
    · intro y hy
      show mfind (memplace s1.cache id (s.next E id)).1 y = none
      rw [hfc, if_neg (hpre' y hy)]; exact W'.stale y hy
    · rw [List.map_append, List.nodup_append]
      refine ⟨W'.nod, by simp, ?_⟩
      intro a ha b hb
      obtain ⟨f, hf, rfl⟩ := List.mem_map.1 ha
      obtain ⟨p, hp, -⟩ := W'.inc f hf
      simp at hb
      rw [hb]
      intro h
      rw [h, h1c] at hp; simp at hp
    · intro k p hp
      have hp : mfind (memplace s1.cache id (s.next E id)).1 k = some p := hp
      rw [hfc] at hp
      by_cases h : k = id
      · rw [if_pos h, Option.some.injEq] at hp
        rw [← hp, h]; simp
      · rw [if_neg h] at hp
        exact List.mem_append_left _ (W'.inq k p hp)
    · intro f hf
      show ∃ o, mfind (memplace s1.cache id (s.next E id)).1 f.1 = some o ∧ _
      rcases List.mem_append.1 hf with hf | hf
      · obtain ⟨p, hp, hpr⟩ := W'.inc f hf
        refine ⟨p, ?_, hpr⟩
        rw [hfc, if_neg, hp]
        intro h; rw [h, h1c] at hp; simp at hp
      · simp at hf
        exact ⟨s.next E id, by rw [hfc, hf]; simp, by rw [hf]⟩
    · show _ = devSum (memplace s1.cache id (s.next E id)).1
      rw [devSum_memplace _ _ _ h1c, ← W'.tot]
      simp [qTotal]
    · intro k p hp
      have hp : mfind (memplace s1.cache id (s.next E id)).1 k = some p := hp
      rw [hfc] at hp
      by_cases h : k = id
      · rw [if_pos h, Option.some.injEq] at hp
        rw [← hp]; exact hsame
      · rw [if_neg h] at hp
        exact W'.same k p hp
  have htot : ∀ q' : List (Nat × Nat), qTotal (q' ++ [(id, (s.next E id).raw)]) = (s.next E id).raw + qTotal q' := by
    intro q'; simp [qTotal]; omega
  rw [hr] at hr1
  rcases makeRoom_fifo E (s.next E id) hraw _ _ s1 q pre Ht Wt hr1 with ⟨e1, e2⟩ | ⟨x, h, W1, ho, hxc, hbig⟩
  · rw [e2]
    have W1 : FW E s1 q pre := by rw [e1]; exact Wt
    rcases hpre with hp | ⟨x, h, hp, hxo, hbig⟩
    · refine ⟨pre, push q pre W1 ?_, Or.inl hp⟩
      rw [hp]; exact fun _ h => absurd h List.not_mem_nil
    · have hxid : x ≠ id := by
        intro hx
        rw [hx] at hxo
        have hnx : s.next E id = DevObj.ofHost E.alloc h := by simp only [OCH.next, hxo]
        have h3 := W1.tot
        rw [hnx] at hroom
        omega
      refine ⟨pre, push q pre W1 ?_, Or.inr ⟨x, h, hp, ?_, ?_⟩⟩
      · rw [hp]; intro y hy; rw [List.mem_singleton.1 hy]; exact hxid
      · show mfind s1.off x = some h
        rw [e1, hoth x hxid]; exact hxo
      · rw [htot]; omega
  · refine ⟨[x], push _ _ W1 ?_, Or.inr ⟨x, h, rfl, ho, ?_⟩⟩
    · intro y hy
      rw [List.mem_singleton.1 hy]
      intro hx; rw [hx] at hxc; exact hxc hcid
    · rw [htot]; omega

end Shamrock
