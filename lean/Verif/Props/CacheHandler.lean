import Verif.Proof.CacheFifo
/-! C55: the neighbour cache handler (`ObjectCacheHandler`). A history is a list of `get_cache` (or `preload`) and `reset` calls in which the
caller may catch the exceptions. -/
namespace Shamrock

/-- **C55** Whatever the history, no call has undefined behaviour. -/
theorem C55_never_undefined (E : OCEnv) (F : E.Fits) (ops : List OCOp) : ∃ s rs, ocRun E OCH.init ops = some (s, rs) := by
  obtain ⟨s, rs, h, -⟩ := oc_run_inv E F ops OCH.init (init_inv E)
  exact ⟨s, rs, h⟩

theorem reached_inv (E : OCEnv) (F : E.Fits) (ops : List OCOp) (s : OCH) (rs : List (Option DevObj)) (h : ocRun E OCH.init ops = some (s, rs)) : OCInv E s := by
  obtain ⟨s', rs', h', H⟩ := oc_run_inv E F ops OCH.init (init_inv E)
  rw [h, Option.some.injEq, Prod.mk.injEq] at h'
  rw [h'.1]; exact H

/-- **C55** Whatever the history, the objects on the device take no more memory than the limit, and the handler knows exactly how much they
take. -/
theorem C55_memory_limit (E : OCEnv) (F : E.Fits) (ops : List OCOp) (s : OCH) (rs : List (Option DevObj)) (h : ocRun E OCH.init ops = some (s, rs)) :
    (s.cache.map fun kv => kv.2.cnt.hold + kv.2.scan.hold + kv.2.neigh.hold + 4).sum ≤ E.max.toNat ∧
    s.dev.toNat = (s.cache.map fun kv => kv.2.cnt.hold + kv.2.scan.hold + kv.2.neigh.hold + 4).sum :=
  ⟨(reached_inv E F ops s rs h).le, (reached_inv E F ops s rs h).dev⟩

/-- **C55** After any history, `get_cache(id)` returns the contents that a call of the generator for `id`, made since the last reset, returned,
or throws; it throws only if the object, alone, is larger than the limit. -/
theorem C55_get_cache (E : OCEnv) (F : E.Fits) (ops : List OCOp) (s : OCH) (rs : List (Option DevObj)) (h : ocRun E OCH.init ops = some (s, rs)) (id : Nat) :
    ∃ s' r, ocGet E s id = some (s', r) ∧
      (∀ o, r = some o → ∃ t, s.epoch ≤ t ∧ s'.calls[t]? = some id ∧ o.toHost = (E.gen t id).toHost) ∧
      (r = none ↔ ddHasKey s.cache id = false ∧ E.max.toNat < (s.next E id).raw) := by
  have H := reached_inv E F ops s rs h
  rcases hc : mfind s.cache id with _ | o
  · have hk : ddHasKey s.cache id = false := by simp [ddHasKey, hc]
    obtain ⟨s', L, ⟨h1, h2, h3⟩ | ⟨h1, h2, h3⟩⟩ := get_miss E F s H id hc
    · refine ⟨s', _, h2, ?_, ?_⟩
      · intro o ho
        rw [Option.some.injEq] at ho
        rw [← ho, ← L.epoch]
        exact (L.inv.co id _ h3).1
      · simp only [reduceCtorEq, hk, true_and, false_iff]; omega
    · refine ⟨s', _, h2, by simp, ?_⟩
      simp only [hk, true_and, true_iff]; exact h1
  · refine ⟨s, some o, get_hit E s id o hc, ?_, ?_⟩
    · intro o' ho
      rw [Option.some.injEq] at ho
      rw [← ho]
      exact (H.co id o hc).1
    · simp [ddHasKey, hc]

/-- **C55** `get_cache(id)`, even when it throws, keeps what it holds for the other ids (on the device or on the host). -/
theorem C55_keeps_others (E : OCEnv) (F : E.Fits) (ops : List OCOp) (s : OCH) (rs : List (Option DevObj)) (h : ocRun E OCH.init ops = some (s, rs)) (id : Nat) (s' : OCH)
    (r) (hg : ocGet E s id = some (s', r)) (k : Nat) (hk : k ≠ id) :
    ((mfind s'.cache k).map DevObj.toHost).or (mfind s'.off k) = ((mfind s.cache k).map DevObj.toHost).or (mfind s.off k) := by
  have H := reached_inv E F ops s rs h
  rcases hc : mfind s.cache id with _ | o
  · obtain ⟨s1, L, hh⟩ := get_miss E F s H id hc
    have hs : s1 = s' := by
      rcases hh with ⟨-, h2, -⟩ | ⟨-, h2, -⟩ <;>
        · rw [hg, Option.some.injEq, Prod.mk.injEq] at h2
          exact h2.1.symm
    rw [← hs]
    exact L.holds k hk
  · rw [get_hit E s id o hc, Option.some.injEq, Prod.mk.injEq] at hg
    rw [hg.1]

/-- Reloading an object from the host does not take more memory than the first time. -/
def OCEnv.Reload (E : OCEnv) : Prop := ∀ t id, (DevObj.ofHost E.alloc (E.gen t id).toHost).raw ≤ (E.gen t id).raw

/-- What is held fits on the device. -/
def HeldFits (E : OCEnv) (s : OCH) : Prop := ∀ id h, s.holds id = some h → (DevObj.ofHost E.alloc h).raw ≤ E.max.toNat

theorem held_step (E : OCEnv) (F : E.Fits) (R : E.Reload) (s : OCH) (H : OCInv E s) (Q : HeldFits E s) (id : Nat) (s' : OCH) (r)
    (hg : ocGet E s id = some (s', r)) :
    OCInv E s' ∧ HeldFits E s' ∧ (∀ k, k ≠ id → s'.holds k = s.holds k) ∧ (∀ o, r = some o → s'.holds id = some o.toHost) ∧
    (∀ h, s.holds id = some h → ∃ o, r = some o ∧ o.toHost = h ∧ s'.calls = s.calls) ∧
    (s'.calls = s.calls ∨ s'.calls = s.calls ++ [id]) := by
  rcases hc : mfind s.cache id with _ | o
  · have hcalls : (s.taken E id).calls = s.calls ∨ (s.taken E id).calls = s.calls ++ [id] := by
      simp only [OCH.taken]; cases mfind s.off id <;> simp
    have hold : ∀ h, s.holds id = some h → mfind s.off id = some h := by
      intro h hh; simpa [OCH.holds, hc] using hh
    have hheld : ∀ h, mfind s.off id = some h → s.next E id = DevObj.ofHost E.alloc h ∧ (s.taken E id).calls = s.calls := by
      intro h hh; simp only [OCH.next, OCH.taken, hh, and_self]
    obtain ⟨s1, L, ⟨h1, h2, h3⟩ | ⟨h1, h2, h3, h4⟩⟩ := get_miss E F s H id hc
    · rw [hg, Option.some.injEq, Prod.mk.injEq] at h2
      obtain ⟨rfl, rfl⟩ := h2
      have hid : s'.holds id = some (s.next E id).toHost := by simp [OCH.holds, h3]
      refine ⟨L.inv, ?_, L.holds, ?_, ?_, by rw [L.calls]; exact hcalls⟩
      · intro k h hk
        by_cases e : k = id
        · rw [e, hid, Option.some.injEq] at hk
          rw [← hk]
          rcases ho : mfind s.off id with _ | g
          · have hn : s.next E id = E.gen s.calls.length id := by simp only [OCH.next, ho]
            rw [hn] at h1 ⊢
            exact le_trans (R _ _) h1
          · rw [(hheld g ho).1] at h1 ⊢; exact h1
        · rw [L.holds k e] at hk; exact Q k h hk
      · intro o ho
        rw [Option.some.injEq] at ho
        rw [← ho]; exact hid
      · intro h hh
        obtain ⟨e1, e2⟩ := hheld h (hold h hh)
        exact ⟨_, rfl, by rw [e1]; rfl, by rw [L.calls]; exact e2⟩
    · rw [hg, Option.some.injEq, Prod.mk.injEq] at h2
      obtain ⟨rfl, rfl⟩ := h2
      refine ⟨L.inv, ?_, L.holds, by simp, ?_, by rw [L.calls]; exact hcalls⟩
      · intro k h hk
        by_cases e : k = id
        · rw [e, h3] at hk; simp at hk
        · rw [L.holds k e] at hk; exact Q k h hk
      · intro h hh
        have := Q id h hh
        rw [(hheld h (hold h hh)).1] at h1
        omega
  · rw [get_hit E s id o hc, Option.some.injEq, Prod.mk.injEq] at hg
    obtain ⟨rfl, rfl⟩ := hg
    have hid : s.holds id = some o.toHost := by simp [OCH.holds, hc]
    refine ⟨H, Q, fun _ _ => rfl, ?_, ?_, Or.inl rfl⟩
    · intro o' ho; rw [Option.some.injEq] at ho; rw [← ho]; exact hid
    · intro h hh
      rw [hid, Option.some.injEq] at hh
      exact ⟨o, rfl, hh, rfl⟩

theorem held_run (E : OCEnv) (F : E.Fits) (R : E.Reload) : ∀ (ops : List OCOp) (s s' : OCH) (rs : List (Option DevObj)), OCInv E s → HeldFits E s →
    ocRun E s ops = some (s', rs) → OCInv E s' ∧ HeldFits E s' := by
  intro ops
  induction ops with
  | nil =>
    intro s s' rs H Q h
    simp only [ocRun, Option.some.injEq, Prod.mk.injEq] at h
    rw [← h.1]; exact ⟨H, Q⟩
  | cons op ops ih =>
    intro s s' rs H Q h
    obtain ⟨s1, r, e, H1⟩ := step_inv E F s H op
    simp only [ocRun, e, Option.map_eq_some_iff, Prod.mk.injEq] at h
    obtain ⟨⟨s2, rs2⟩, h1, h2, h3⟩ := h
    refine ih s1 s' rs2 H1 ?_ (by rw [h1]; rw [← h2])
    cases op with
    | reset =>
      simp only [ocStep, Option.some.injEq, Prod.mk.injEq] at e
      rw [← e.1]
      intro id h hh
      simp [ocReset, OCH.holds, mfind] at hh
    | get id => exact (held_step E F R s H Q id s1 r e).2.1

/-- The ids the generator was called with since a moment at which it had been called `n` times. -/
def OCH.since (s : OCH) (n : Nat) : List Nat := s.calls.drop n

theorem held_keeps (E : OCEnv) (F : E.Fits) (R : E.Reload) (id : Nat) (h : HostObj) : ∀ (ids : List Nat) (s s' : OCH) (rs : List (Option DevObj)), OCInv E s → HeldFits E s →
    s.holds id = some h → ocRun E s (ids.map OCOp.get) = some (s', rs) →
    (∀ i : Nat, ids[i]? = some id → ∃ o : DevObj, rs[i]? = some (some o) ∧ o.toHost = h) ∧
    (∀ n, n ≤ s.calls.length → id ∉ s.since n → n ≤ s'.calls.length ∧ id ∉ s'.since n) := by
  intro ids
  induction ids with
  | nil =>
    intro s s' rs H Q hh hrun
    simp only [List.map_nil, ocRun, Option.some.injEq, Prod.mk.injEq] at hrun
    rw [← hrun.1]
    exact ⟨by simp, fun n h1 h2 => ⟨h1, h2⟩⟩
  | cons k ids ih =>
    intro s s' rs H Q hh hrun
    obtain ⟨s1, r, e, H1⟩ := step_inv E F s H (.get k)
    simp only [List.map_cons, ocRun, e, Option.map_eq_some_iff, Prod.mk.injEq] at hrun
    obtain ⟨⟨s2, rs2⟩, h1, h2, h3⟩ := hrun
    have e : ocGet E s k = some (s1, r) := e
    obtain ⟨-, Q1, hoth, hres, hheld, hcalls⟩ := held_step E F R s H Q k s1 r e
    have hh1 : s1.holds id = some h := by
      by_cases hk : id = k
      · obtain ⟨o, ho, hoh, -⟩ := hheld h (hk ▸ hh)
        rw [hk, hres o ho, hoh]
      · rw [hoth id hk]; exact hh
    obtain ⟨a1, a2⟩ := ih s1 s2 rs2 H1 Q1 hh1 (by rw [h1])
    rw [← h3, ← h2]
    refine ⟨?_, ?_⟩
    · intro i hi
      cases i with
      | zero =>
        simp only [List.getElem?_cons_zero, Option.some.injEq] at hi
        obtain ⟨o, ho, hoh, -⟩ := hheld h (hi ▸ hh)
        exact ⟨o, by rw [ho]; rfl, hoh⟩
      | succ i => simpa using a1 i (by simpa using hi)
    · intro n hn hnot
      apply a2
      · rcases hcalls with c | c <;> rw [c]
        · exact hn
        · simp; omega
      · by_cases hk : id = k
        · obtain ⟨o, -, -, hc⟩ := hheld h (hk ▸ hh)
          simpa [OCH.since, hc] using hnot
        · rcases hcalls with c | c
          · simpa [OCH.since, c] using hnot
          · simp only [OCH.since] at hnot ⊢
            rw [c, List.drop_append_of_le_length hn]
            simp only [List.mem_append, List.mem_singleton, not_or]
            exact ⟨hnot, hk⟩

/-- **C55** An object is generated once: after a `get_cache(id)` that returned, and until the next reset, the generator is not called again for
`id` and every `get_cache(id)` returns the same contents, however often the object has been offloaded, and whatever the other calls do. -/
theorem C55_generated_once (E : OCEnv) (F : E.Fits) (R : E.Reload) (ops : List OCOp) (s : OCH) (rs : List (Option DevObj)) (hs : ocRun E OCH.init ops = some (s, rs))
    (id : Nat) (s1 : OCH) (o : DevObj) (hg : ocGet E s id = some (s1, some o)) (ids : List Nat) (s2 : OCH) (rs2 : List (Option DevObj))
    (hrun : ocRun E s1 (ids.map OCOp.get) = some (s2, rs2)) :
    (∀ i : Nat, ids[i]? = some id → ∃ o' : DevObj, rs2[i]? = some (some o') ∧ o'.toHost = o.toHost) ∧ id ∉ s2.calls.drop s1.calls.length := by
  obtain ⟨H, Q⟩ := held_run E F R ops OCH.init s rs (init_inv E) (by intro k h hh; simp [OCH.init, OCH.holds, mfind] at hh) hs
  obtain ⟨H1, Q1, -, hres, -, -⟩ := held_step E F R s H Q id s1 _ hg
  obtain ⟨a1, a2⟩ := held_keeps E F R id o.toHost ids s1 s2 rs2 H1 Q1 (hres o rfl) hrun
  exact ⟨a1, (a2 s1.calls.length le_rfl (by simp [OCH.since])).2⟩

/-! ### Order of the evictions -/

/-- The ids on the device, oldest first, with their sizes, if objects leave in the order they came. -/
def fifoQueue (max : Nat) : List (Nat × Nat) → List (OCOp × Option DevObj) → List (Nat × Nat)
  | q, [] => q
  | _, (.reset, _) :: l => fifoQueue max [] l
  | q, (.get id, some o) :: l =>
    fifoQueue max (if id ∈ q.map Prod.fst then q else fifoDrop max o.raw q ++ [(id, o.raw)]) l
  | q, (.get _, none) :: l => fifoQueue max q l

/-- **C55** As long as no call throws, and if a reloaded object takes the memory it took first, the objects leave the device in the order they
came, and no more of them than needed. -/
theorem C55_fifo (E : OCEnv) (F : E.Fits) (X : E.Exact) (ops : List OCOp) (s : OCH) (rs : List (Option DevObj))
    (hs : ocRun E OCH.init ops = some (s, rs)) (hok : ∀ (i id : Nat), ops[i]? = some (OCOp.get id) → rs[i]? ≠ some none) (id : Nat) :
    ddHasKey s.cache id = true ↔ id ∈ (fifoQueue E.max.toNat [] (ops.zip rs)).map Prod.fst := by
  have gen : ∀ (ops : List OCOp) (s0 s : OCH) (rs : List (Option DevObj)) (q : List (Nat × Nat)), OCInv E s0 → FInv E s0 q →
      ocRun E s0 ops = some (s, rs) → (∀ (i id : Nat), ops[i]? = some (OCOp.get id) → rs[i]? ≠ some none) → FInv E s (fifoQueue E.max.toNat q (ops.zip rs)) := by
    intro ops
    induction ops with
    | nil =>
      intro s0 s rs q H Q h _
      simp only [ocRun, Option.some.injEq, Prod.mk.injEq] at h
      rw [← h.1, ← h.2]; exact Q
    | cons op ops ih =>
      intro s0 s rs q H Q h hok
      obtain ⟨s1, r, e, H1⟩ := step_inv E F s0 H op
      simp only [ocRun, e, Option.map_eq_some_iff, Prod.mk.injEq] at h
      obtain ⟨⟨s2, rs2⟩, h1, h2, h3⟩ := h
      have hok' : ∀ (i id : Nat), ops[i]? = some (OCOp.get id) → rs2[i]? ≠ some none := by
        intro i id hi
        have := hok (i + 1) id (by simpa using hi)
        rw [← h3] at this
        simpa using this
      have key := fun q' Q' => ih s1 s rs2 q' H1 Q' (by rw [h1, ← h2]) hok'
      rw [← h3, List.zip_cons_cons]
      cases op with
      | reset =>
        simp only [ocStep, Option.some.injEq, Prod.mk.injEq] at e
        simp only [fifoQueue]
        refine key [] ?_
        rw [← e.1]
        exact finv_init E _ _
      | get k =>
        cases r with
        | none =>
          exact absurd (by rw [← h3]; rfl) (hok 0 k rfl)
        | some o =>
          simp only [fifoQueue]
          refine key _ ?_
          have e : ocGet E s0 k = some (s1, some o) := e
          rcases hc : mfind s0.cache k with _ | p
          · have hnm : k ∉ q.map Prod.fst := by
              intro hm
              obtain ⟨f, hf, hfk⟩ := List.mem_map.1 hm
              obtain ⟨pre, W, -⟩ := Q
              obtain ⟨p, hp, -⟩ := W.inc f hf
              rw [hfk, hc] at hp; simp at hp
            rw [if_neg hnm]
            exact finv_get E F X s0 s1 H q Q k o hc e
          · have hm : k ∈ q.map Prod.fst := by
              obtain ⟨pre, W, -⟩ := Q
              exact List.mem_map.2 ⟨_, W.inq k p hc, rfl⟩
            rw [if_pos hm]
            rw [get_hit E s0 k p hc, Option.some.injEq, Prod.mk.injEq] at e
            rw [← e.1]; exact Q
  obtain ⟨pre, W, -⟩ := gen ops OCH.init s rs [] (init_inv E) (finv_init E _ _) hs hok
  constructor
  · intro h
    rcases hc : mfind s.cache id with _ | p
    · simp [ddHasKey, hc] at h
    · exact List.mem_map.2 ⟨_, W.inq id p hc, rfl⟩
  · intro h
    obtain ⟨f, hf, hfk⟩ := List.mem_map.1 h
    obtain ⟨p, hp, -⟩ := W.inc f hf
    rw [hfk] at hp
    simp [ddHasKey, hp]

/-! ### A concrete handler -/

/-- An object of `n` neighbours per particle: 12 bytes for `n = 1`. -/
def ocObj (n : Nat) : DevObj := ⟨⟨List.replicate n 1, 4 * n⟩, ⟨[], 0⟩, 1, ⟨List.replicate n 7, 4 * n⟩⟩

/-- Object `id` has size `8 * id + 4`, the limit is 36 bytes. -/
def ocEnv : OCEnv := ⟨fun n => 4 * n, fun _ id => ocObj id, 36⟩

theorem ocEnv_exact : ocEnv.Exact := by
  intro t id
  simp [ocEnv, ocObj, DevObj.ofHost, DevObj.toHost, DevObj.raw]

/-- Objects 1, 2 and 1 again are returned, 2 leaves when 3 comes... -/
example : (ocRun ocEnv OCH.init [.get 1, .get 2, .get 1, .get 3, .get 2]).map (fun x => (x.1.cache.map Prod.fst, x.1.off.map Prod.fst, x.1.dq, x.1.dev)) =
    some ([2], [1, 3], [3, 2, 2], 20) := by decide +kernel

example : fifoQueue 36 [] ([.get 1, .get 2, .get 1, .get 3, .get 2].zip [some (ocObj 1), some (ocObj 2), some (ocObj 1), some (ocObj 3), some (ocObj 2)]) =
    [(2, 20)] := by decide +kernel

/-- Object 5 does not fit: the call throws, every object is on the host, nothing is lost. -/
example : (ocRun ocEnv OCH.init [.get 1, .get 2, .get 5]).map (fun x => (x.1.cache.map Prod.fst, x.1.off.map Prod.fst, x.1.dev, x.2.map Option.isSome)) =
    some ([], [1, 2], 0, [true, true, false]) := by decide +kernel

/-- The generator is bounded, so the sizes are in range: a variant of the handler above meets `Fits`, `Reload` and `Exact`. -/
def ocEnvB : OCEnv := ⟨fun n => 4 * n, fun _ id => ocObj (id % 8), 36⟩

example : ocEnvB.Fits ∧ ocEnvB.Reload ∧ ocEnvB.Exact := by
  have hx : ocEnvB.Exact := by
    intro t id
    simp [ocEnvB, ocObj, DevObj.ofHost, DevObj.toHost, DevObj.raw]
  refine ⟨?_, fun t id => le_of_eq (hx t id), hx⟩
  intro t id
  have h1 : (ocEnvB.gen t id).raw = 8 * (id % 8) + 4 := by simp [ocEnvB, ocObj, DevObj.raw]; omega
  have h2 : ocEnvB.max.toNat = 36 := rfl
  rw [hx t id, h1, h2]
  omega

/-- **C55** After a call that threw, objects may leave out of order: 1 came back after 2 and yet leaves before it when 11 comes, through the
entry it left in the queue of builds (each build is recorded twice, and the second record is not removed with the object). -/
theorem C55_fifo_defect :
    (ocRun ⟨fun n => 4 * n, fun _ id => ocObj (id % 10), 36⟩ OCH.init [.get 1, .get 5, .get 2, .get 1]).map
      (fun x => (x.1.cache.map Prod.fst, x.1.dq)) = some ([1, 2], [1, 2, 2, 1, 1]) ∧
    (ocRun ⟨fun n => 4 * n, fun _ id => ocObj (id % 10), 36⟩ OCH.init [.get 1, .get 5, .get 2, .get 1, .get 11]).map
      (fun x => (x.1.cache.map Prod.fst, x.1.off.map Prod.fst)) = some ([2, 11], [1]) ∧
    (fifoQueue 36 [] ([.get 1, .reset, .get 2, .get 1, .get 11].zip [some (ocObj 1), none, some (ocObj 2), some (ocObj 1), some (ocObj 1)])).map
      Prod.fst = [1, 11] := by
  decide +kernel

/-- **C55** `build_cache`, which is public, on an id that is already on the device: it throws, and the handler counts the object twice from then
on (12 bytes are there, 24 are counted), so that room is missing for others. -/
theorem C55_build_twice_defect :
    ((ocBuild ocEnv OCH.init 1).andThen fun s _ => ocBuild ocEnv s 1).map (fun x => (x.1.cache.map Prod.fst, x.1.dev, devSum x.1.cache, x.2)) =
      some ([1], 24, 12, none) := by
  decide +kernel

end Shamrock
