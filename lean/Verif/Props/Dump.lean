import Verif.Props.Sched
import Verif.Props.SchedCodec
/-! # C51: checkpoint and restart -/
namespace Shamrock

attribute [local irreducible] u64max maxMsg

/-- **C51.** A dump written by `W` ranks, whose writes reached the file in any order, is loaded by any number `W'` of ranks; the user metadata, the layout, the simulation box,
the criteria, the patch tree and the patches are those that were saved; the patch `p` is on the rank `p.nodeOwnerId % W'` with exactly its data, no rank holds anything else, and
the objects of the simulation are the same. -/
theorem C51_restore {α : Type} (ser : PLayer α → Res (List Byte)) (des : List LField → List Byte → Res (PLayer α)) (js : JVal → List Byte) (parse : List Byte → Option JVal)
    (hjs : ∀ v, parse (js v) = some v) (W : Nat) (hW : W < 2 ^ 31) (user : Nat → List Byte) (o : TreeOrd) (m : DumpMeta) (s : Sched α) (hrep : DumpRep o m s)
    (how : Owned W s.global s.data) (hcod : LayerCodec ser (des m.layout) W s.data) (hbytes : dumpBytes ser W s.data < 2 ^ 64)
    (ws : List (List FWrite)) (h : writeDump ser js W user o m s = .ok ws) (f : FileC) (hf : DumpFile ws f) (W' : Nat) (hW1 : 0 < W') (hW2 : W' < 2 ^ 31) :
    ∃ L : Loaded α, loadDump des parse W' f = .ok L ∧ L.user = user 0 ∧ L.dmeta = m ∧ L.sched.tree = s.tree ∧ L.sched.nextPid = s.nextPid ∧ L.sched.fresh = s.fresh ∧
      L.sched.global = s.global.map (fun p => { p with nodeOwnerId := p.nodeOwnerId % W' }) ∧ L.sched.locals = (fun r => buildLocal L.sched.global r) ∧
      Owned W' L.sched.global L.sched.data ∧ (∀ p ∈ s.global, mfind (L.sched.data (p.nodeOwnerId % W')) p.idPatch = mfind (s.data p.nodeOwnerId) p.idPatch) ∧
      (allObj W' L.sched.data).Perm (allObj W s.data) := by
  obtain ⟨L, l1, l2, l3, l4, l5, l6, l7, l8, l9, l10, l11⟩ := loadDump_ok hjs hW hrep how hcod hbytes h hf hW1 hW2
  exact ⟨L, l1, l2, l3, l4, l5, l6, l7, l8, l10, l11, load_objs how (by rw [← l7]; exact l10) l11⟩

/-- **C51, writing.** The dump is written when all patches serialize, there is at least one patch and fewer than 2^31, the three headers are shorter than 2^31 bytes and all ranks
give user metadata of the same length. -/
theorem C51_write {α : Type} (ser : PLayer α → Res (List Byte)) (js : JVal → List Byte) (W : Nat) (hW1 : 0 < W) (hW : W < 2 ^ 31) (user : Nat → List Byte) (o : TreeOrd) (m : DumpMeta) (s : Sched α)
    (hrep : DumpRep o m s) (how : Owned W s.global s.data) (hser : ∀ r < W, ∀ id l, mfind (s.data r) id = some l → ∃ b, ser l = .ok b)
    (hne : s.global ≠ []) (hcnt : s.global.length < 2 ^ 31) (huser : ∀ r < W, (user r).length = (user 0).length) (hu : (user 0).length < 2 ^ 31)
    (hmeta : ∀ j, metaToJson o m s = .ok j → (js j).length < 2 ^ 31)
    (htab : ∀ items, dumpAll ser s.data W = .ok items →
      (js (tableJson (items.flatten.map (·.1)) (items.flatten.map (·.2.length)) (exScan64 0 (items.flatten.map (·.2.length))))).length < 2 ^ 31) :
    ∃ ws, writeDump ser js W user o m s = .ok ws := by
  obtain ⟨mj, e1, e2⟩ := meta_roundtrip hrep.dmeta hrep.ord hrep.tree hrep.next hrep.patches
  obtain ⟨items, hi⟩ := dumpAll_ok ser s.data W (fun r hr => dumpItems_ok ser (s.data r) (fun kv hkv => hser r hr kv.1 kv.2 (mfind_of_mem (how.maps r hr) hkv)))
  have hD := dump_items hi
  obtain ⟨i1, i2, i3⟩ := items_sum hD
  have hlen : items.length = W := by
    have := (dumpAll_spec ser s.data W items hi).length_eq
    rw [List.length_range] at this; exact this.symm
  have hnd := owned_pids how
  -- the items are as many as the patches
  have hcount : items.flatten.length = s.global.length := by
    rw [i3, ← List.length_map (f := (·.1)), ← List.length_map (as := s.global) (f := (·.idPatch))]
    refine List.Perm.length_eq ((List.perm_ext_iff_of_nodup hnd how.ids).2 fun id => ⟨fun h => ?_, fun h => ?_⟩)
    · obtain ⟨kv, hk, rfl⟩ := List.mem_map.1 h
      obtain ⟨r, hr, hk⟩ := List.mem_flatMap.1 hk
      obtain ⟨p, p1, p2, -⟩ := how.only r (List.mem_range.1 hr) kv.1 kv.2 (mfind_of_mem (how.maps r (List.mem_range.1 hr)) hk)
      rw [← p2]; exact List.mem_map_of_mem (f := (·.idPatch)) p1
    · obtain ⟨p, hp, rfl⟩ := List.mem_map.1 h
      obtain ⟨h1, l, hl⟩ := how.owner p hp
      exact List.mem_map.2 ⟨(p.idPatch, l), List.mem_flatMap.2 ⟨_, List.mem_range.2 h1, mfind_mem' _ _ _ hl⟩, rfl⟩
  have ef1 : (items.map fun is => is.map (·.1)).flatten = items.flatten.map (·.1) := by rw [List.map_flatten]
  have ef2 : (items.map fun is => is.map (·.2.length)).flatten = items.flatten.map (·.2.length) := by rw [List.map_flatten]
  have c1 := C26_allgatherv 0 (items.map fun is => is.map (·.1)) [] (by rw [List.length_map, hlen]; omega)
  have c2 := C26_allgatherv 0 (items.map fun is => is.map (·.2.length)) [] (by rw [List.length_map, hlen]; omega)
  rw [ef1, List.length_map, if_pos (by rw [hcount]; exact hcnt)] at c1
  rw [ef2, List.length_map, if_pos (by rw [hcount]; exact hcnt)] at c2
  have ht := htab items hi
  have hm := hmeta mj e1
  unfold writeDump
  rw [e1, hi]
  simp only [Res.bind, c1, c2]
  generalize hoff : exScan64 0 (items.flatten.map (·.2.length)) = offs at *
  have holen : offs.length = items.flatten.length := by rw [← hoff, exScan64_length, List.length_map]
  rw [if_neg (by omega)]
  have hany : ((List.range W).any fun r => decide (((List.range W).map fun q => (user q).length).sum % 2 ^ 64 ≠ (user r).length * W)) = false := by
    rw [List.any_eq_false]
    intro r hr
    have hr := List.mem_range.1 hr
    have hsum : ((List.range W).map fun q => (user q).length).sum = W * (user 0).length := by
      have : (List.range W).map (fun q => (user q).length) = (List.range W).map (fun _ => (user 0).length) :=
        List.map_congr_left fun q hq => huser q (List.mem_range.1 hq)
      rw [this, List.map_const', List.sum_replicate, List.length_range]; rfl
    have hlt : W * (user 0).length < 2 ^ 64 := by
      calc W * (user 0).length ≤ 2 ^ 31 * 2 ^ 31 := Nat.mul_le_mul (by omega) (by omega)
        _ < 2 ^ 64 := by decide
    rw [hsum, Nat.mod_eq_of_lt hlt, huser r hr, Nat.mul_comm]
    simp
  rw [hany]
  simp only [Bool.false_eq_true, if_false]
  have hne' : items.flatten ≠ [] := by
    intro e
    rw [e] at hcount
    exact hne (List.length_eq_zero_iff.1 hcount.symm)
  obtain ⟨ws, hw, hwl⟩ := allItemWrites_ok (8 + (user 0).length + (8 + (js mj).length) + (8 + (js (tableJson (items.flatten.map (·.1)) (items.flatten.map (·.2.length)) offs)).length))
    (items.flatten.map (·.1)) offs items (fun i hi => by
      obtain ⟨j, hj⟩ := List.mem_iff_getElem?.1 hi
      have hlt := (List.getElem?_eq_some_iff.1 hj).1
      have : (items.flatten.map (·.1))[j]? = some i.1 := by rw [List.getElem?_map, hj]; rfl
      rw [lastIdx_eq (by rw [i2]; exact hnd) this]
      exact ⟨_, List.getElem?_eq_getElem (by rw [holen]; exact hlt)⟩)
  rw [hw]
  simp only []
  rw [if_neg (by
    intro e
    rw [e] at holen
    exact hne' (List.length_eq_zero_iff.1 holen.symm))]
  cases ws with
  | nil => rw [hlen] at hwl; exact absurd hwl.symm (by rw [List.length_nil]; omega)
  | cons w0 r => exact ⟨_, rfl⟩

/-- **C51, the serialization of the code.** The serialization used for the dump (buffers may be larger than 4 GB) reads back every layer of at most 2^40 bytes whose values have the
sizes of the field types. -/
theorem C51_layer_codec (tys : List STy) (l : PLayer (List Byte)) (hl : l.Typed tys) (hb : layerBytes tys l < 2 ^ 40) (env : SerEnv) :
    ∃ b, dumpSer env tys l = .ok b ∧ b.length = layerBytes tys l + 8 ∧
      ∀ (env' : SerEnv) (junk : Nat → List Byte), dumpDes env' junk tys (l.map (·.nvar)) b = .ok l := by
  obtain ⟨z1, z2, z3⟩ := layerW_sizes env.wr hl hb 0
  have hx : ∀ (env' : SerEnv) (junk : Nat → List Byte), ∃ b, dumpSer env tys l = .ok b ∧ b.length = layerBytes tys l + 8 ∧ dumpDes env' junk tys (l.map (·.nvar)) b = .ok l := by
    intro env' junk
    obtain ⟨h0, h1, b, h2, h3, hlen, r1, r2, r3, r4, r5⟩ := serial_roundtrip (layerW env.wr 0 tys l) (layerL junk env'.ld 0 tys l) ⟨0, 0⟩ true env.junk env.fin env'.ext
      (layerW_legal env.wr hl 0) (layerW_match junk env.wr env'.ld hl 0) rfl (by simp only; omega) (Or.inl rfl)
    have hd : (declSum (layerW env.wr 0 tys l)).add ⟨0, 0⟩ = declSum (layerW env.wr 0 tys l) := by
      generalize declSum (layerW env.wr 0 tys l) = D at z1
      obtain ⟨a, c⟩ := D
      unfold SSize.add
      simp only at z1 ⊢
      rw [u64_small _ (by omega), u64_small _ (by omega)]
      simp only [Nat.add_zero]
    rw [hd] at r1
    refine ⟨b, ?_, ?_, ?_⟩
    · unfold dumpSer
      rw [z3 ⟨0, 0⟩ (by simp only; omega)]
      simp only [Res.bind, Nat.zero_add]
      rw [r1]
      simp only
      rw [layer_ser_eq env.wr hl, r2]
      exact r3
    · rw [hlen]; simp only; omega
    · unfold dumpDes
      rw [r4]
      exact layer_deser junk env.wr env'.ld hl 0 h2 h3 r5
  obtain ⟨b, b1, b2, -⟩ := hx env (fun _ => [])
  refine ⟨b, b1, b2, fun env' junk => ?_⟩
  obtain ⟨b', e1, -, e3⟩ := hx env' junk
  rw [b1, Res.ok.injEq] at e1
  rw [e1]; exact e3

/-- **C51, when a dump is safe.** After any history and a scheduler step without split and merge, on all ranks, the state can be dumped: every patch of the global list is alive and in no pack,
the data of each patch is on its owner and nothing else is. -/
theorem C51_ready {α F P : Type} [LinearOrder F] (env : SchedEnv α F) (b : LBEnv α P) (smin : V3 Nat) (he : EnvOk env smin) (W : Nat) (hW : 0 < W) (hW2 : W < 2 ^ 31)
    (s s' : Sched α) (h : SchedHist env b smin W s) (e : StepEnv) (doLB : Bool) (hs : StepOk env W e s)
    (hc : CodecOk b.ser b.des env.lay W s.data) (ht : SchedStep env b W e false doLB s s') : DumpReady W s' ∧ Owned W s'.global s'.data := by
  have H := h.ok he hW hW2
  have H' := (SchedHist.step s s' e false doLB h hs (fun h => by cases h) hc ht).okSync he hW hW2
  obtain ⟨s1, srq, mrq, im, s2, t1, t2, t3⟩ := ht
  obtain ⟨s1', srq', mrq', im', a1, a2, a3⟩ := step_pre he H hs false
  rw [t1, Res.ok.injEq, Prod.mk.injEq, Prod.mk.injEq, Prod.mk.injEq] at a1
  obtain ⟨rfl, rfl, rfl, rfl⟩ := a1
  obtain ⟨rfl, rfl⟩ := a3 rfl
  have hg1 : s1.global = buildGlobal W s.locals := by
    unfold schedPre at t1
    rw [if_neg (by rw [hs.fresh]; simp)] at t1
    simp only [if_true, Res.ok.injEq, Prod.mk.injEq] at t1
    rw [← t1.1]
  have hg : s'.global = s2.global := by
    unfold schedPost at t3
    simp only [mergePatches, Res.bind, Res.ok.injEq] at t3
    rw [← t3]
  have hready : DumpReady W s' := by
    intro p hp
    rw [hg] at hp
    rcases t2 with ⟨_, ops', ps2, prog, sf, ord, n, st, data', e1, e2, e3, e4, e5, e6, rfl⟩ | ⟨_, rfl⟩
    · obtain ⟨ops, ps', c1, c2, ⟨own, c3, c4⟩, -⟩ := lb_ok b.rnd b.sort b.hilb b.ser b.des hW hW2 a2 (e.packOrder s1.global.length) (hs.packOrder _) hc
      rw [c1, Res.ok.injEq] at e1
      subst e1
      rw [c2, Res.ok.injEq] at e2
      have hp' : p ∈ ps2 := hp
      rw [← e2, c4] at hp'
      obtain ⟨i, hi⟩ := List.mem_iff_getElem?.1 hp'
      rw [List.getElem?_zipWith] at hi
      cases hq : s1.global[i]? with
      | none => rw [hq] at hi; cases hi
      | some q =>
        cases ho : own[i]? with
        | none => rw [hq, ho] at hi; cases hi
        | some o =>
          rw [hq, ho] at hi
          simp only [Option.some.injEq] at hi
          rw [← hi]
          refine ⟨c3.valid o (List.mem_of_getElem? ho), ?_⟩
          have hmem := List.mem_of_getElem? hq
          rw [hg1] at hmem
          exact H.packs q hmem
    · rw [hg1] at hp
      exact ⟨(H.dinv.owned.owner p hp).1, H.packs p hp⟩
  exact ⟨hready, (H'.1.dinv.congrKey (ready_perm hW2 hready H'.2).symm).owned⟩

/-- **C51, restart.** After any history, a state that is dumped when it is safe and loaded on any number of ranks is again a correct scheduler state, with the same objects; so all the theorems on
histories (C37) apply to the run that continues from it. -/
theorem C51_restart {α F P : Type} [LinearOrder F] (env : SchedEnv α F) (b : LBEnv α P) (smin : V3 Nat) (he : EnvOk env smin) (W W' : Nat) (hW : 0 < W) (hW2 : W < 2 ^ 31) (hW1' : 0 < W') (hW2' : W' < 2 ^ 31)
    (s s' : Sched α) (h : SchedHist env b smin W s) (hr : Restarts W W' s s') :
    SchedSpec env W' s' ∧ (allObj W' s'.data).Perm (allObj W s.data) ∧ s'.tree = s.tree ∧ s'.nextPid = s.nextPid ∧
    s'.global.map (fun p => (p.idPatch, p.coord, p.loadValue)) = s.global.map (fun p => (p.idPatch, p.coord, p.loadValue)) ∧
    (∀ r < W', ∀ id, id ∈ s'.owned r ↔ id ∈ (s'.locals r).map (·.idPatch)) := by
  have hk := h.okSync he hW hW2
  refine ⟨C37_history env b smin he W' hW1' hW2' s' (SchedHist.restart s s' h hW hW2 hr), ?_⟩
  obtain ⟨ser, des, js, parse, user, o, m, ws, f, L, iterO, q1, q2, q3, q4, q5, q6, q7, q8, q9, rfl⟩ := hr
  have hown : Owned W s.global s.data := (hk.1.dinv.congrKey (ready_perm hW2 q5 hk.2).symm).owned
  obtain ⟨L', l1, l2, l3, l4, l5, l6, l7, l8, l9, l10, l11⟩ := C51_restore ser des js parse q1 W hW2 user o m s q2 hown q3 q4 ws q6 f q7 W' hW1' hW2'
  rw [q8, Res.ok.injEq] at l1
  subst l1
  refine ⟨l11, l4, l5, ?_, fun r _ id => (q9 r _).mem_iff⟩
  show L.sched.global.map _ = _
  rw [l7, List.map_map]; rfl

theorem loadItems_inv {α : Type} (des : List Byte → Res (PLayer α)) (f : FileC) (head : Nat) (tab : Nat → Nat × Nat) : ∀ (qs : List Patch) (d d' : RankData α),
    loadItems des f head tab qs d = .ok d' → ∀ p ∈ qs, ∃ b l, readAtLarge f (tab p.idPatch).2 (head + (tab p.idPatch).1) = .ok b ∧ des b = .ok l := by
  intro qs
  induction qs with
  | nil => intro d d' _ p hp; exact absurd hp List.not_mem_nil
  | cons q qs ih =>
    intro d d' h p hp
    rw [loadItems] at h
    cases h1 : readAtLarge f (tab q.idPatch).2 (head + (tab q.idPatch).1) with
    | throws => rw [h1] at h; cases h
    | ub => rw [h1] at h; cases h
    | ok b =>
    cases h2 : des b with
    | throws => rw [h1] at h; simp only [Res.bind, h2] at h; cases h
    | ub => rw [h1] at h; simp only [Res.bind, h2] at h; cases h
    | ok l =>
    cases h3 : addAll [(q.idPatch, l)] d with
    | throws => rw [h1] at h; simp only [Res.bind, h2, h3] at h; cases h
    | ub => rw [h1] at h; simp only [Res.bind, h2, h3] at h; cases h
    | ok d1 =>
    rw [h1] at h
    simp only [Res.bind, h2, h3] at h
    rcases List.mem_cons.1 hp with rfl | hp
    · exact ⟨b, l, h1, h2⟩
    · exact ih d1 d' h p hp

theorem allRanks_inv {D : Type} (f : Nat → D → Res D) (d : Nat → D) : ∀ (W : Nat) (d' : Nat → D), allRanks f W d = .ok d' → ∀ r < W, ∃ x, f r (d r) = .ok x := by
  intro W
  induction W with
  | zero => intro d' _ r hr; omega
  | succ n ih =>
    intro d' h r hr
    rw [allRanks] at h
    cases h1 : allRanks f n d with
    | throws => rw [h1] at h; cases h
    | ub => rw [h1] at h; cases h
    | ok d1 =>
    rw [h1] at h
    cases h2 : f n (d n) with
    | throws => simp only [Res.bind, h2] at h; cases h
    | ub => simp only [Res.bind, h2] at h; cases h
    | ok x =>
    by_cases hn : r = n
    · rw [hn]; exact ⟨x, h2⟩
    · exact ih d1 h1 r (by omega)

/-- **C51, defect: a dump made just after a merge.** `merge_patches` leaves the merged patches in the global list, marked by the owner 2^32-1. When a state with such a patch is
dumped (for instance right after the setup of a model, which ends with `scheduler_step(true, true)`, /repo/src/shammodels/ramses/src/Model.cpp:96), the dump is written without an
error but can not be loaded, on any number of ranks: the loader reduces all owners modulo the number of ranks, so the dead patch is given to a rank, which deserializes an empty buffer. -/
theorem C51_dead_patch_defect {α : Type} (ser : PLayer α → Res (List Byte)) (des : List LField → List Byte → Res (PLayer α)) (js : JVal → List Byte) (parse : List Byte → Option JVal)
    (hjs : ∀ v, parse (js v) = some v) (W : Nat) (hW : W < 2 ^ 31) (user : Nat → List Byte) (o : TreeOrd) (m : DumpMeta) (s : Sched α) (hrep : DumpRep o m s)
    (how : Owned W (live s.global) s.data) (hids : (s.global.map (·.idPatch)).Nodup) (hbytes : dumpBytes ser W s.data < 2 ^ 64)
    (p : Patch) (hp : p ∈ s.global) (hdead : p.isErrMode = true) (hdes : ∀ l, des m.layout [] ≠ .ok l)
    (ws : List (List FWrite)) (h : writeDump ser js W user o m s = .ok ws) (f : FileC) (hf : DumpFile ws f) (W' : Nat) (hW1 : 0 < W') (hW2 : W' < 2 ^ 31) :
    ∀ L, loadDump des parse W' f ≠ .ok L := by
  intro Ld hLd
  obtain ⟨head, tab, L, hD, hread, hmiss, hred⟩ := loadDump_reduce (des := des) hjs hW hrep (owned_pids how)
    (owned_pid_lt how fun p hp => (hrep.patches p (mem_live.1 hp).1).id) hbytes h hf W'
  rw [hred] at hLd
  cases h1 : allRanks (fun r d => loadItems (des m.layout) f head tab (buildLocal (s.global.map fun p => { p with nodeOwnerId := p.nodeOwnerId % W' }) r) d) W' (fun _ => []) with
  | throws => rw [h1] at hLd; cases hLd
  | ub => rw [h1] at hLd; cases hLd
  | ok d1 =>
  have hlt := Nat.mod_lt p.nodeOwnerId hW1
  obtain ⟨x, hx⟩ := allRanks_inv _ _ _ _ h1 (p.nodeOwnerId % W') hlt
  obtain ⟨b, l, b1, b2⟩ := loadItems_inv _ _ _ _ _ _ _ hx { p with nodeOwnerId := p.nodeOwnerId % W' } (by
    unfold buildLocal
    rw [List.mem_filter]
    refine ⟨List.mem_map.2 ⟨p, hp, rfl⟩, ?_⟩
    rw [Bool.and_eq_true]
    refine ⟨beq_self_eq_true _, ?_⟩
    cases he : ({ p with nodeOwnerId := p.nodeOwnerId % W' } : Patch).isErrMode with
    | false => rfl
    | true =>
      have he : p.nodeOwnerId % W' = 2 ^ 32 - 1 := (isErr_iff _).1 he
      omega)
  have hb := hmiss p.idPatch (by
    rw [(items_sum hD).2.1]
    intro hc
    obtain ⟨kv, hk, e⟩ := List.mem_map.1 hc
    obtain ⟨r, hr, hk⟩ := List.mem_flatMap.1 hk
    obtain ⟨q, q1, q2, -⟩ := how.only r (List.mem_range.1 hr) kv.1 kv.2 (mfind_of_mem (how.maps r (List.mem_range.1 hr)) hk)
    have := owned_inj hids (mem_live.1 q1).1 hp (q2.trans e)
    rw [this] at q1
    rw [(mem_live.1 q1).2] at hdead
    cases hdead)
  have b1 : readAtLarge f (tab p.idPatch).2 (head + (tab p.idPatch).1) = .ok b := b1
  rw [hb, Res.ok.injEq] at b1
  rw [← b1] at b2
  exact hdes l b2

/-- The deserialization of the code fails on an empty buffer. -/
theorem C51_empty_buffer (env : SerEnv) (junk : Nat → List Byte) (tys : List STy) (lay : List Nat) : ∀ l, dumpDes env junk tys lay [] ≠ .ok l := by
  intro l h
  unfold dumpDes at h
  have : SerH.ofBuffer [] true env.ext = .throws := rfl
  rw [this] at h; cases h

/-- **C51, defect: a field of type `i64`.** `i64` is one of the field types (enabled_fields.hpp:41), but a layout with such a field can not be written to a dump:
`to_json` has no name for the type. -/
theorem C51_i64_field_defect {α : Type} (ser : PLayer α → Res (List Byte)) (js : JVal → List Byte) (W : Nat) (user : Nat → List Byte) (o : TreeOrd) (m : DumpMeta) (s : Sched α)
    (f : LField) (hf : f ∈ m.layout) (ht : f.ty = .i64) : ∀ ws, writeDump ser js W user o m s ≠ .ok ws := by
  have key : ∀ lay : List LField, f ∈ lay → ∀ r, layoutToJson lay ≠ .ok r := by
    intro lay
    induction lay with
    | nil => intro h; exact absurd h List.not_mem_nil
    | cons g lay ih =>
      intro h r hr
      rw [layoutToJson] at hr
      rcases List.mem_cons.1 h with rfl | h
      · rw [ht] at hr; cases hr
      · cases h1 : g.ty.tname with
        | ok t =>
          cases h2 : layoutToJson lay with
          | ok l => exact ih h l h2
          | throws => rw [h1] at hr; simp only [Res.bind, h2] at hr; cases hr
          | ub => rw [h1] at hr; simp only [Res.bind, h2] at hr; cases hr
        | throws => rw [h1] at hr; cases hr
        | ub => rw [h1] at hr; cases hr
  intro ws h
  unfold writeDump at h
  cases h1 : metaToJson o m s with
  | throws => rw [h1] at h; cases h
  | ub => rw [h1] at h; cases h
  | ok mj =>
    unfold metaToJson at h1
    cases h2 : m.simBox.toJson with
    | throws => rw [h2] at h1; cases h1
    | ub => rw [h2] at h1; cases h1
    | ok sb =>
      rw [h2] at h1
      cases h3 : layoutToJson m.layout with
      | ok l => exact key m.layout hf l h3
      | throws => simp only [Res.bind, h3] at h1; cases h1
      | ub => simp only [Res.bind, h3] at h1; cases h1

/-- **C51, defect: a simulation without patches.** Without any patch, the dump does not succeed: `all_offsets[all_offsets.size() - 1]` (ShamrockDump.cpp:152) is outside of
the empty vector. -/
theorem C51_no_patch_defect {α : Type} (ser : PLayer α → Res (List Byte)) (js : JVal → List Byte) (W : Nat) (hW : W < 2 ^ 31) (user : Nat → List Byte) (o : TreeOrd) (m : DumpMeta) (s : Sched α)
    (hd : ∀ r < W, s.data r = []) : ∀ ws, writeDump ser js W user o m s ≠ .ok ws := by
  intro ws h
  obtain ⟨mj, items, w0, r, h1, h2, h3, h4, h5, h6, h7, -⟩ := writeDump_inv hW h
  have hD := dump_items h2
  have : (List.range W).flatMap s.data = [] := List.flatMap_eq_nil_iff.2 fun r hr => hd r (List.mem_range.1 hr)
  rw [this] at hD
  cases hf : items.flatten with
  | nil => exact h7 hf
  | cons a l => rw [hf] at hD; cases hD

end Shamrock
