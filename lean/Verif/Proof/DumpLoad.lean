import Verif.Proof.Dump
import Verif.Proof.SchedInit
/-! # C51: checkpoint and restart -/
namespace Shamrock

attribute [local irreducible] u64max maxMsg

/-- The number of bytes of the serialized patches. -/
def dumpBytes {α : Type} (ser : PLayer α → Res (List Byte)) (W : Nat) (data : Nat → RankData α) : Nat :=
  (((List.range W).flatMap data).map fun kv => match ser kv.2 with | .ok b => b.length | _ => 0).sum

/-- The state is made of values of the C++ types, the orders are iteration orders of the sets of the tree. -/
structure DumpRep {α : Type} (o : TreeOrd) (m : DumpMeta) (s : Sched α) : Prop where
  dmeta : m.Ok
  ord : o.Ok s.tree
  tree : s.tree.Rep
  next : s.nextPid < 2 ^ 64
  patches : ∀ p ∈ s.global, p.Rep

/-- The patches are written to memory and read back by the codec. -/
def LayerCodec {α : Type} (ser : PLayer α → Res (List Byte)) (des : List Byte → Res (PLayer α)) (W : Nat) (data : Nat → RankData α) : Prop :=
  ∀ r < W, ∀ id l, mfind (data r) id = some l → ∃ b, ser l = .ok b ∧ des b = .ok l

theorem owned_pids {α : Type} {W : Nat} {G : List Patch} {data : Nat → RankData α} (h : Owned W G data) : (((List.range W).flatMap data).map (·.1)).Nodup := by
  rw [List.map_flatMap, List.nodup_flatMap]
  refine ⟨fun r hr => mapOk_nodup (h.maps r (List.mem_range.1 hr)), ?_⟩
  refine (List.nodup_range (n := W)).imp_of_mem ?_
  intro a b ha hb hab
  rw [Function.onFun, List.disjoint_left]
  intro id h1 h2
  obtain ⟨d1, e1⟩ := mfind_of_key _ id h1
  obtain ⟨d2, e2⟩ := mfind_of_key _ id h2
  obtain ⟨p, p1, p2, p3⟩ := h.only a (List.mem_range.1 ha) id d1 e1
  obtain ⟨q, q1, q2, q3⟩ := h.only b (List.mem_range.1 hb) id d2 e2
  have := owned_inj h.ids p1 q1 (p2.trans q2.symm)
  rw [this] at p3
  exact hab (p3.symm.trans q3)

theorem items_sum {α : Type} {ser : PLayer α → Res (List Byte)} {D : RankData α} {L : List (Nat × List Byte)} (h : List.Forall₂ (fun kv i => i.1 = kv.1 ∧ ser kv.2 = .ok i.2) D L) :
    (L.map (·.2.length)).sum = (D.map fun kv => match ser kv.2 with | .ok b => b.length | _ => 0).sum ∧ L.map (·.1) = D.map (·.1) ∧ L.length = D.length := by
  induction h with
  | nil => exact ⟨rfl, rfl, rfl⟩
  | cons a _ ih =>
    refine ⟨?_, ?_, ?_⟩
    · rw [List.map_cons, List.map_cons, List.sum_cons, List.sum_cons, ih.1, a.2]
    · rw [List.map_cons, List.map_cons, ih.2.1, a.1]
    · rw [List.length_cons, List.length_cons, ih.2.2]

/-- What `writeDump` returns. -/
theorem writeDump_inv {α : Type} {ser : PLayer α → Res (List Byte)} {js : JVal → List Byte} {W : Nat} (hW : W < 2 ^ 31) {user : Nat → List Byte} {o : TreeOrd} {m : DumpMeta} {s : Sched α}
    {ws : List (List FWrite)} (h : writeDump ser js W user o m s = .ok ws) :
    ∃ mj items w0 r, metaToJson o m s = .ok mj ∧ dumpAll ser s.data W = .ok items ∧ items.flatten.length < 2 ^ 31 ∧
      (user 0).length < 2 ^ 31 ∧ (js mj).length < 2 ^ 31 ∧
      (js (tableJson (items.flatten.map (·.1)) (items.flatten.map (·.2.length)) (exScan64 0 (items.flatten.map (·.2.length))))).length < 2 ^ 31 ∧
      items.flatten ≠ [] ∧
      allItemWrites (8 + (user 0).length + (8 + (js mj).length) + (8 + (js (tableJson (items.flatten.map (·.1)) (items.flatten.map (·.2.length)) (exScan64 0 (items.flatten.map (·.2.length))))).length))
        (items.flatten.map (·.1)) (exScan64 0 (items.flatten.map (·.2.length))) items = .ok (w0 :: r) ∧
      ws = (headerWrites 0 (user 0) ++ headerWrites (8 + (user 0).length) (js mj) ++
        headerWrites (8 + (user 0).length + (8 + (js mj).length)) (js (tableJson (items.flatten.map (·.1)) (items.flatten.map (·.2.length)) (exScan64 0 (items.flatten.map (·.2.length))))) ++ w0) :: r := by
  unfold writeDump at h
  cases hm : metaToJson o m s with
  | throws => rw [hm] at h; cases h
  | ub => rw [hm] at h; cases h
  | ok mj =>
  cases hi : dumpAll ser s.data W with
  | throws => rw [hm, hi] at h; cases h
  | ub => rw [hm, hi] at h; cases h
  | ok items =>
  have hlen : items.length = W := by
    have := (dumpAll_spec ser s.data W items hi).length_eq
    rw [List.length_range] at this; exact this.symm
  have ef1 : (items.map fun is => is.map (·.1)).flatten = items.flatten.map (·.1) := by rw [List.map_flatten]
  have ef2 : (items.map fun is => is.map (·.2.length)).flatten = items.flatten.map (·.2.length) := by rw [List.map_flatten]
  have c1 := C26_allgatherv 0 (items.map fun is => is.map (·.1)) [] (by rw [List.length_map, hlen]; omega)
  have c2 := C26_allgatherv 0 (items.map fun is => is.map (·.2.length)) [] (by rw [List.length_map, hlen]; omega)
  rw [ef1, List.length_map] at c1
  rw [ef2, List.length_map] at c2
  rw [hm, hi] at h
  simp only [Res.bind, c1, c2] at h
  by_cases hcnt : items.flatten.length < 2 ^ 31
  · rw [if_pos hcnt, if_pos hcnt] at h
    simp only [] at h
    generalize htt : js (tableJson (items.flatten.map (·.1)) (items.flatten.map (·.2.length)) (exScan64 0 (items.flatten.map (·.2.length)))) = tt at *
    generalize hmt : js mj = mt at *
    split at h
    · cases h
    · rename_i hsz
      split at h
      · cases h
      · cases hw : allItemWrites (8 + (user 0).length + (8 + mt.length) + (8 + tt.length)) (items.flatten.map (·.1)) (exScan64 0 (items.flatten.map (·.2.length))) items with
        | throws => rw [hw] at h; cases h
        | ub => rw [hw] at h; cases h
        | ok ws' =>
          rw [hw] at h
          simp only [] at h
          split at h
          · cases h
          · rename_i hne
            have hne' : items.flatten ≠ [] := by
              intro e
              rw [e] at hne
              exact hne rfl
            cases ws' with
            | nil => cases h
            | cons w0 r =>
              simp only [Res.ok.injEq] at h
              subst htt hmt
              exact ⟨mj, items, w0, r, rfl, rfl, hcnt, by omega, by omega, by omega, hne', hw, h.symm⟩
  · rw [if_neg hcnt] at h; cases h

theorem at_find {k : String} {l : List (String × JVal)} {v : JVal} (h : l.find? (fun p => p.1 == k) = some (k, v)) : (JVal.obj l).at k = .ok v := by
  show (match l.find? (fun p => p.1 == k) with | some p => Res.ok p.2 | none => Res.throws) = _
  rw [h]

/-- Loading what was written: the headers are read back, each item is found in the file; what remains is the loading of the patches of each rank. -/
theorem loadDump_reduce {α : Type} {ser : PLayer α → Res (List Byte)} {des : List LField → List Byte → Res (PLayer α)} {js : JVal → List Byte} {parse : List Byte → Option JVal}
    (hjs : ∀ v, parse (js v) = some v) {W : Nat} (hW : W < 2 ^ 31) {user : Nat → List Byte} {o : TreeOrd} {m : DumpMeta} {s : Sched α} (hrep : DumpRep o m s)
    (hnd : (((List.range W).flatMap s.data).map (·.1)).Nodup) (hpid : ∀ kv ∈ (List.range W).flatMap s.data, kv.1 < 2 ^ 64) (hbytes : dumpBytes ser W s.data < 2 ^ 64)
    {ws : List (List FWrite)} (h : writeDump ser js W user o m s = .ok ws) {f : FileC} (hf : DumpFile ws f) (W' : Nat) :
    ∃ (head : Nat) (tab : Nat → Nat × Nat) (L : List (Nat × List Byte)), List.Forall₂ (fun kv i => i.1 = kv.1 ∧ ser kv.2 = .ok i.2) ((List.range W).flatMap s.data) L ∧
      (∀ pid b, (pid, b) ∈ L → readAtLarge f (tab pid).2 (head + (tab pid).1) = .ok b) ∧
      (∀ pid, pid ∉ L.map (·.1) → readAtLarge f (tab pid).2 (head + (tab pid).1) = .ok []) ∧
      loadDump des parse W' f = (allRanks (fun r d => loadItems (des m.layout) f head tab (buildLocal (s.global.map fun p => { p with nodeOwnerId := p.nodeOwnerId % W' }) r) d) W' (fun _ => [])).bind
        fun data => .ok ⟨user 0, m, ⟨s.tree, s.global.map fun p => { p with nodeOwnerId := p.nodeOwnerId % W' }, s.nextPid, s.fresh,
          fun r => buildLocal (s.global.map fun p => { p with nodeOwnerId := p.nodeOwnerId % W' }) r, fun _ => [], data⟩⟩ := by
  obtain ⟨mj, items, w0, r, h1, h2, h3, h4, h5, h6, h7, h8, rfl⟩ := writeDump_inv hW h
  obtain ⟨mj', e1, e2⟩ := meta_roundtrip hrep.dmeta hrep.ord hrep.tree hrep.next hrep.patches
  rw [h1, Res.ok.injEq] at e1
  subst e1
  have hD := dump_items h2
  obtain ⟨i1, i2, i3⟩ := items_sum hD
  have hn : (items.flatten.map (·.1)).Nodup := by rw [i2]; exact hnd
  have hs : (items.flatten.map (·.2.length)).sum < 2 ^ 64 := by rw [i1]; exact hbytes
  have hfile := dump_text hn hs h8 hf
  generalize hL : items.flatten = L at *
  have hpids : ∀ x ∈ L.map (·.1), x < 2 ^ 64 := by
    intro x hx
    rw [i2] at hx
    obtain ⟨kv, hk, rfl⟩ := List.mem_map.1 hx
    exact hpid kv hk
  have hcounts : ∀ x ∈ L.map (·.2.length), x < 2 ^ 64 := fun x hx => lt_of_le_of_lt (List.le_sum_of_mem hx) hs
  have hoffs := exScan64_lt (L.map (·.2.length)) 0 (by rw [Nat.zero_add]; exact hs)
  have holen := exScan64_length (L.map (·.2.length)) 0
  refine ⟨8 + (user 0).length + (8 + (js mj).length) + (8 + (js (tableJson (L.map (·.1)) (L.map (·.2.length)) (exScan64 0 (L.map (·.2.length))))).length),
    offTable (L.map (·.1)) (exScan64 0 (L.map (·.2.length))) (L.map (·.2.length)), L, hD, ?_, ?_, ?_⟩
  · intro pid b hb
    rw [hfile]
    exact item_read hn hs hb
  · intro pid hb
    unfold offTable
    rw [if_neg hb]
    have : msgChunks 0 = [] := List.length_eq_zero_iff.1 (by
      unfold msgChunks
      rw [List.length_map, List.length_range]
      exact Nat.div_eq_of_lt (by have := maxMsg_pos; omega))
    unfold readAtLarge
    show (msgChunks 0).foldr _ _ = _
    rw [this]; rfl
  · unfold loadDump
    have p1 := hjs mj
    have p2 := hjs (tableJson (L.map (·.1)) (L.map (·.2.length)) (exScan64 0 (L.map (·.2.length))))
    generalize htt : js (tableJson (L.map (·.1)) (L.map (·.2.length)) (exScan64 0 (L.map (·.2.length)))) = tt at *
    generalize hmt : js mj = mt at *
    have r1 := readHeader_eq (T := dumpText (user 0) mt tt L) (A := []) (s := user 0) (C := headerBytes mt ++ headerBytes tt ++ L.flatMap (·.2)) (by omega)
      (by unfold dumpText; simp only [List.append_assoc, List.nil_append])
    have r2 := readHeader_eq (T := dumpText (user 0) mt tt L) (A := headerBytes (user 0)) (s := mt) (C := headerBytes tt ++ L.flatMap (·.2)) (by omega)
      (by unfold dumpText; simp only [List.append_assoc])
    have r3 := readHeader_eq (T := dumpText (user 0) mt tt L) (A := headerBytes (user 0) ++ headerBytes mt) (s := tt) (C := L.flatMap (·.2)) (by omega)
      (by unfold dumpText; simp only [List.append_assoc])
    rw [List.length_nil, Nat.zero_add] at r1
    rw [headerBytes_length] at r2
    rw [List.length_append, headerBytes_length, headerBytes_length] at r3
    rw [← hfile] at r1 r2 r3
    rw [r1]
    simp only [Res.bind]
    rw [show 8 + (user 0).length + 8 + mt.length = 8 + (user 0).length + (8 + mt.length) by omega] at r2
    rw [show 8 + (user 0).length + (8 + mt.length) + 8 + tt.length = 8 + (user 0).length + (8 + mt.length) + (8 + tt.length) by omega] at r3
    rw [r2]
    simp only []
    rw [r3]
    simp only []
    rw [p1, p2]
    simp only []
    rw [e2]
    simp only []
    unfold tableJson
    rw [at_find (k := "bytecounts") (v := jNats (L.map (·.2.length))) rfl, at_find (k := "offsets") (v := jNats (exScan64 0 (L.map (·.2.length)))) rfl,
      at_find (k := "pids") (v := jNats (L.map (·.1))) rfl]
    simp only [u64s_jNats hcounts, u64s_jNats hoffs, u64s_jNats hpids]
    rw [if_neg (by rw [holen, List.length_map, List.length_map]; omega)]
    rw [List.take_of_length_le (show (L.map (·.1)).length ≤ (L.map (·.2.length)).length by rw [List.length_map, List.length_map])]
    have hne : exScan64 0 (L.map (·.2.length)) ≠ [] := by
      intro e
      rw [e, List.length_map] at holen
      exact h7 (List.length_eq_zero_iff.1 holen.symm)
    simp only [if_neg hne]

theorem owned_pid_lt {α : Type} {W : Nat} {G : List Patch} {data : Nat → RankData α} (how : Owned W G data) (hG : ∀ p ∈ G, p.idPatch < 2 ^ 64) :
    ∀ kv ∈ (List.range W).flatMap data, kv.1 < 2 ^ 64 := by
  intro kv hk
  obtain ⟨r, hr, hk⟩ := List.mem_flatMap.1 hk
  obtain ⟨p, p1, p2, -⟩ := how.only r (List.mem_range.1 hr) kv.1 kv.2 (mfind_of_mem (how.maps r (List.mem_range.1 hr)) hk)
  rw [← p2]; exact hG p p1

/-- Loading what was written. -/
theorem loadDump_ok {α : Type} {ser : PLayer α → Res (List Byte)} {des : List LField → List Byte → Res (PLayer α)} {js : JVal → List Byte} {parse : List Byte → Option JVal}
    (hjs : ∀ v, parse (js v) = some v) {W : Nat} (hW : W < 2 ^ 31) {user : Nat → List Byte} {o : TreeOrd} {m : DumpMeta} {s : Sched α} (hrep : DumpRep o m s)
    (how : Owned W s.global s.data) (hcod : LayerCodec ser (des m.layout) W s.data) (hbytes : dumpBytes ser W s.data < 2 ^ 64)
    {ws : List (List FWrite)} (h : writeDump ser js W user o m s = .ok ws) {f : FileC} (hf : DumpFile ws f) {W' : Nat} (hW1 : 0 < W') (hW2 : W' < 2 ^ 31) :
    ∃ L : Loaded α, loadDump des parse W' f = .ok L ∧ L.user = user 0 ∧ L.dmeta = m ∧ L.sched.tree = s.tree ∧ L.sched.nextPid = s.nextPid ∧ L.sched.fresh = s.fresh ∧
      L.sched.global = s.global.map (fun p => { p with nodeOwnerId := p.nodeOwnerId % W' }) ∧ L.sched.locals = (fun r => buildLocal L.sched.global r) ∧
      L.sched.owned = (fun _ => []) ∧ Owned W' L.sched.global L.sched.data ∧
      ∀ p ∈ s.global, mfind (L.sched.data (p.nodeOwnerId % W')) p.idPatch = mfind (s.data p.nodeOwnerId) p.idPatch := by
  obtain ⟨head, tab, L, hD, hread, -, hred⟩ := loadDump_reduce (des := des) hjs hW hrep (owned_pids how) (owned_pid_lt how fun p hp => (hrep.patches p hp).id) hbytes h hf W'
  have hcover : ∀ p ∈ s.global, ∃ l b, mfind (s.data p.nodeOwnerId) p.idPatch = some l ∧ des m.layout b = .ok l ∧ (p.idPatch, b) ∈ L := by
    intro p hp
    obtain ⟨ho, l, hl⟩ := how.owner p hp
    obtain ⟨b, b1, b2⟩ := hcod _ ho _ l hl
    have hmem : (p.idPatch, l) ∈ (List.range W).flatMap s.data := List.mem_flatMap.2 ⟨_, List.mem_range.2 ho, mfind_mem' _ _ _ hl⟩
    obtain ⟨i, hi, q1, q2⟩ := forall2_exists_left hD _ hmem
    refine ⟨l, b, hl, b2, ?_⟩
    have q2' : ser l = .ok i.2 := q2
    rw [b1, Res.ok.injEq] at q2'
    have q1' : i.1 = p.idPatch := q1
    rw [q2', ← q1']; exact hi
  -- the layers
  obtain ⟨lyr, hlyr⟩ : ∃ lyr : Nat → PLayer α, ∀ p ∈ s.global, mfind (s.data p.nodeOwnerId) p.idPatch = some (lyr p.idPatch) := by
    refine ⟨fun id => match s.global.find? (fun p => p.idPatch == id) with | some p => (mfind (s.data p.nodeOwnerId) id).getD [] | none => [], fun p hp => ?_⟩
    have : s.global.find? (fun q => q.idPatch == p.idPatch) = some p := by
      cases hq : s.global.find? (fun q => q.idPatch == p.idPatch) with
      | none => exact absurd (List.find?_eq_none.1 hq p hp) (by simp)
      | some q =>
        have q1 := List.mem_of_find?_eq_some hq
        have q2 := List.find?_some hq
        rw [owned_inj how.ids q1 hp (by simpa using q2)]
    simp only [this]
    obtain ⟨l, b, hl, -⟩ := hcover p hp
    rw [hl]; rfl
  obtain ⟨G', hG'⟩ : ∃ G', G' = s.global.map (fun p => { p with nodeOwnerId := p.nodeOwnerId % W' }) := ⟨_, rfl⟩
  rw [← hG'] at hred
  have hids : G'.map (·.idPatch) = s.global.map (·.idPatch) := by rw [hG', List.map_map]; rfl
  have hGn : (G'.map (·.idPatch)).Nodup := by rw [hids]; exact how.ids
  have hGmem : ∀ q ∈ G', q.nodeOwnerId < W' ∧ ∃ p ∈ s.global, p.idPatch = q.idPatch ∧ q.nodeOwnerId = p.nodeOwnerId % W' := by
    intro q hq
    rw [hG'] at hq
    obtain ⟨p, hp, rfl⟩ := List.mem_map.1 hq
    exact ⟨Nat.mod_lt _ hW1, p, hp, rfl, rfl⟩
  have hbl : ∀ r q, q ∈ buildLocal G' r ↔ q ∈ G' ∧ q.nodeOwnerId = r := by
    intro r q
    unfold buildLocal
    rw [List.mem_filter, Bool.and_eq_true, beq_iff_eq]
    refine ⟨fun h => ⟨h.1, h.2.1⟩, fun h => ⟨h.1, h.2, ?_⟩⟩
    cases he : q.isErrMode with
    | false => rfl
    | true =>
      have := (isErr_iff q).1 he
      have := (hGmem q h.1).1
      omega
  have hload : ∀ r < W', ∃ d', loadItems (des m.layout) f head tab (buildLocal G' r) [] = .ok d' ∧ MapOk d' ∧
      ∀ k, mfind d' k = if k ∈ (buildLocal G' r).map (·.idPatch) then some (lyr k) else none := by
    intro r hr
    refine loadItems_spec (des m.layout) f _ _ lyr (buildLocal G' r) [] List.Pairwise.nil ?_ (fun p _ => rfl) ?_
    · exact ((List.filter_sublist (l := G')).map _).nodup hGn
    · intro q hq
      obtain ⟨-, p, p1, p2, -⟩ := hGmem q ((hbl r q).1 hq).1
      obtain ⟨l, b, hl, hd, hb⟩ := hcover p p1
      rw [hlyr p p1, Option.some.injEq] at hl
      refine ⟨b, ?_, ?_⟩
      · rw [← p2]
        exact hread _ _ hb
      · rw [← p2, hl]; exact hd
  choose! D hD1 hD2 hD3 using hload
  have hall := allRanks_ok (fun r d => loadItems (des m.layout) f head tab (buildLocal G' r) d) D (fun _ => []) W' hD1
  refine ⟨⟨user 0, m, ⟨s.tree, G', s.nextPid, s.fresh, fun r => buildLocal G' r, fun _ => [], fun r => if r < W' then D r else []⟩⟩, ?_, rfl, rfl, rfl, rfl, rfl, hG', rfl, rfl, ?_, ?_⟩
  · rw [hred, hall]; rfl
  · refine ⟨fun r hr => ?_, hGn, fun q hq => ?_, fun r hr id d hd => ?_⟩
    · show MapOk (if r < W' then D r else [])
      rw [if_pos hr]; exact hD2 r hr
    · obtain ⟨q1, -⟩ := hGmem q hq
      refine ⟨q1, lyr q.idPatch, ?_⟩
      show mfind (if q.nodeOwnerId < W' then D q.nodeOwnerId else []) q.idPatch = _
      rw [if_pos q1, hD3 _ q1, if_pos (List.mem_map_of_mem (f := (·.idPatch)) ((hbl _ q).2 ⟨hq, rfl⟩))]
    · have hd' : mfind (if r < W' then D r else []) id = some d := hd
      rw [if_pos hr, hD3 r hr] at hd'
      split at hd'
      · rename_i hin
        obtain ⟨q, q1, q2⟩ := List.mem_map.1 hin
        exact ⟨q, ((hbl r q).1 q1).1, q2, ((hbl r q).1 q1).2⟩
      · cases hd'
  · intro p hp
    have hlt := Nat.mod_lt p.nodeOwnerId hW1
    show mfind (if p.nodeOwnerId % W' < W' then D (p.nodeOwnerId % W') else []) p.idPatch = _
    rw [if_pos hlt, hD3 _ hlt, hlyr p hp, if_pos]
    have : ({ p with nodeOwnerId := p.nodeOwnerId % W' } : Patch) ∈ G' := by rw [hG']; exact List.mem_map.2 ⟨p, hp, rfl⟩
    exact List.mem_map.2 ⟨_, (hbl _ _).2 ⟨this, rfl⟩, rfl⟩

/-- The objects of the simulation survive the change of owners. -/
theorem load_objs {α : Type} {W W' : Nat} {G : List Patch} {data data' : Nat → RankData α} (h : Owned W G data)
    (h' : Owned W' (G.map (fun p => { p with nodeOwnerId := p.nodeOwnerId % W' })) data')
    (e : ∀ p ∈ G, mfind (data' (p.nodeOwnerId % W')) p.idPatch = mfind (data p.nodeOwnerId) p.idPatch) : (allObj W' data').Perm (allObj W data) := by
  refine (owned_objs h').trans (List.Perm.trans ?_ (owned_objs h).symm)
  rw [List.flatMap_map]
  have : G.flatMap (fun p => patchObjs data' { p with nodeOwnerId := p.nodeOwnerId % W' }) = G.flatMap (patchObjs data) := by
    apply List.flatMap_congr
    intro p hp
    unfold patchObjs
    show (match mfind (data' (p.nodeOwnerId % W')) p.idPatch with | some l => l.objects | none => []) = _
    rw [e p hp]
    cases mfind (data p.nodeOwnerId) p.idPatch <;> rfl
  rw [this]

/-- The global list and the local lists have the same patches. -/
def GSync {α : Type} (W : Nat) (s : Sched α) : Prop := ∀ r < W, (buildLocal s.global r).map patchKey = (s.locals r).map patchKey

/-- Every patch of the global list is alive and belongs to no pack: the state after `scheduler_step(false, ·)`. -/
def DumpReady {α : Type} (W : Nat) (s : Sched α) : Prop := ∀ p ∈ s.global, p.nodeOwnerId < W ∧ p.packNodeIndex = u64max

theorem resetPack_key (l : List Patch) : (resetPack l).map patchKey = l.map patchKey := by
  unfold resetPack
  rw [List.map_map]; rfl

theorem live_of_ready {α : Type} {W : Nat} (hW : W < 2 ^ 31) {s : Sched α} (h : DumpReady W s) : live s.global = s.global := by
  unfold live
  rw [List.filter_eq_self]
  intro p hp
  cases he : p.isErrMode with
  | false => rfl
  | true =>
    have := (isErr_iff p).1 he
    have := (h p hp).1
    omega

theorem ready_perm {α : Type} {W : Nat} (hW : W < 2 ^ 31) {s : Sched α} (h : DumpReady W s) (hg : GSync W s) : (s.global.map patchKey).Perm ((buildGlobal W s.locals).map patchKey) := by
  have h1 := locals_perm patchKey (fun _ _ => rfl) W s.global (fun p hp => (h p (mem_live.1 hp).1).1)
  rw [live_of_ready hW h] at h1
  refine h1.symm.trans ?_
  have : (buildGlobal W fun r => resetPack (buildLocal s.global r)).map patchKey = (buildGlobal W s.locals).map patchKey := by
    unfold buildGlobal
    rw [List.map_flatMap, List.map_flatMap]
    apply List.flatMap_congr
    intro r hr
    rw [resetPack_key, hg r (List.mem_range.1 hr)]
  rw [this]

/-- A correct scheduler, dumped and loaded on another number of ranks, is a correct scheduler. -/
theorem restart_ok {α F : Type} [LinearOrder F] {env : SchedEnv α F} {smin : V3 Nat} {W W' : Nat} (hW : W < 2 ^ 31) (hW1 : 0 < W') (hW2 : W' < 2 ^ 31) {s s' : Sched α}
    (H : SchedOk env smin W s) (hg : GSync W s) (hr : DumpReady W s) (ht : s'.tree = s.tree) (hn : s'.nextPid = s.nextPid)
    (hG : s'.global = s.global.map (fun p => { p with nodeOwnerId := p.nodeOwnerId % W' })) (how : Owned W' s'.global s'.data)
    (hd : ∀ p ∈ s.global, mfind (s'.data (p.nodeOwnerId % W')) p.idPatch = mfind (s.data p.nodeOwnerId) p.idPatch)
    (iterO : Nat → List Nat → List Nat) (hi : ∀ r l, (iterO r l).Perm l) : SchedOk env smin W' (refreshOwned iterO s') := by
  have hkey := ready_perm hW hr hg
  have HD := H.dinv.congrKey hkey.symm
  have hmemG : ∀ p ∈ s.global, ∃ q ∈ buildGlobal W s.locals, patchKey q = patchKey p := by
    intro p hp
    obtain ⟨q, q1, q2⟩ := List.mem_map.1 (hkey.mem_iff.1 (List.mem_map_of_mem (f := patchKey) hp))
    exact ⟨q, q1, q2⟩
  have hbl : ∀ r q, q ∈ buildLocal s'.global r → q ∈ s'.global ∧ q.nodeOwnerId = r := by
    intro r q hq
    unfold buildLocal at hq
    rw [List.mem_filter, Bool.and_eq_true, beq_iff_eq] at hq
    exact ⟨hq.1, hq.2.1⟩
  have hreset : ∀ r, resetPack (buildLocal s'.global r) = buildLocal s'.global r := by
    intro r
    unfold resetPack
    conv_rhs => rw [← List.map_id (buildLocal s'.global r)]
    apply List.map_congr_left
    intro q hq
    obtain ⟨q1, -⟩ := hbl r q hq
    rw [hG] at q1
    obtain ⟨p, hp, rfl⟩ := List.mem_map.1 q1
    show ({ p with nodeOwnerId := p.nodeOwnerId % W', packNodeIndex := u64max } : Patch) = _
    rw [← (hr p hp).2]; rfl
  have hlive : live s'.global = s'.global := by
    unfold live
    rw [List.filter_eq_self]
    intro q hq
    cases he : q.isErrMode with
    | false => rfl
    | true =>
      have := (isErr_iff q).1 he
      have := (how.owner q hq).1
      omega
  have hperm : (buildGlobal W' fun r => buildLocal s'.global r).Perm s'.global := by
    have := locals_perm (fun p => ({ p with packNodeIndex := u64max } : Patch)) (fun _ _ => rfl) W' s'.global (fun p hp => (how.owner p (mem_live.1 hp).1).1)
    rw [hlive] at this
    have e1 : (fun r => resetPack (buildLocal s'.global r)) = fun r => buildLocal s'.global r := funext hreset
    rw [e1] at this
    have hid : ∀ l : List Patch, (∀ q ∈ l, q ∈ s'.global) → l.map (fun p => ({ p with packNodeIndex := u64max } : Patch)) = l := by
      intro l hl
      conv_rhs => rw [← List.map_id l]
      apply List.map_congr_left
      intro q hq
      have q1 := hl q hq
      rw [hG] at q1
      obtain ⟨p, hp, rfl⟩ := List.mem_map.1 q1
      show ({ p with nodeOwnerId := p.nodeOwnerId % W', packNodeIndex := u64max } : Patch) = _
      rw [← (hr p hp).2]; rfl
    rw [hid _ (fun q hq => hq), hid _ (fun q hq => ?_)] at this
    · exact this
    · obtain ⟨r, -, hq⟩ := List.mem_flatMap.1 hq
      exact (hbl r q hq).1
  have hsub : ∀ q ∈ s'.global, ∃ p ∈ s.global, q = { p with nodeOwnerId := p.nodeOwnerId % W' } := by
    intro q hq
    rw [hG] at hq
    obtain ⟨p, hp, rfl⟩ := List.mem_map.1 hq
    exact ⟨p, hp, rfl⟩
  refine ⟨?_, ?_, ?_, ?_, ?_, ?_, ?_⟩
  · show TLInv smin s'.tree (buildGlobal W' fun r => buildLocal s'.global r)
    rw [ht]
    refine H.tl.congr (fun p hp => ?_) (fun q hq => ?_)
    · obtain ⟨q, q1, q2⟩ := List.mem_map.1 (hkey.mem_iff.2 (List.mem_map_of_mem (f := patchKey) hp))
      simp only [patchKey, Prod.mk.injEq] at q2
      refine ⟨{ q with nodeOwnerId := q.nodeOwnerId % W' }, hperm.mem_iff.2 ?_, q2.1, q2.2.2⟩
      rw [hG]; exact List.mem_map.2 ⟨q, q1, rfl⟩
    · obtain ⟨p, p1, p2⟩ := hsub q (hperm.mem_iff.1 hq)
      obtain ⟨x, x1, x2⟩ := hmemG p p1
      simp only [patchKey, Prod.mk.injEq] at x2
      exact ⟨x, x1, by rw [p2]; exact x2.1⟩
  · show DInv W' env.lay (InPatch env.pos env.box) (buildGlobal W' fun r => buildLocal s'.global r) s'.data
    refine DInv.perm ⟨how, ?_, ?_⟩ hperm.symm
    · intro r hr' id l hl
      obtain ⟨q, q1, q2, q3⟩ := how.only r hr' id l hl
      obtain ⟨p, p1, rfl⟩ := hsub q q1
      have q2 : p.idPatch = id := q2
      have q3 : p.nodeOwnerId % W' = r := q3
      have := hd p p1
      rw [q3, q2, hl] at this
      exact HD.good _ (hr p p1).1 id l this.symm
    · intro q hq l hl
      obtain ⟨p, p1, rfl⟩ := hsub q hq
      have hl : mfind (s'.data (p.nodeOwnerId % W')) p.idPatch = some l := hl
      rw [hd p p1] at hl
      exact HD.place p p1 l hl
  · intro q hq
    obtain ⟨p, p1, rfl⟩ := hsub q (hperm.mem_iff.1 hq)
    obtain ⟨x, x1, x2⟩ := hmemG p p1
    simp only [patchKey, Prod.mk.injEq] at x2
    show p.idPatch < s'.nextPid
    rw [hn, ← x2.1]; exact H.pid x x1
  · show s'.nextPid ≤ s'.tree.nextId
    rw [hn, ht]; exact H.next
  · intro r _ p hp
    exact (hbl r p hp).2
  · intro q hq
    obtain ⟨p, p1, rfl⟩ := hsub q (hperm.mem_iff.1 hq)
    exact (hr p p1).2
  · intro r hr'
    refine ⟨(hi r _).nodup_iff.2 ?_, fun id hid => (hi r _).mem_iff.1 hid⟩
    exact ((List.filter_sublist (l := s'.global)).map _).nodup how.ids

end Shamrock
