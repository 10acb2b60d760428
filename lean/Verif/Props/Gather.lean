import Verif.Model.Gather
import Verif.Props.ChangeList
import Verif.Props.LayerSerial
/-! Property C45: gathering all patch data on one rank. -/
namespace Shamrock

theorem gatherPayloads_spec {D : Type} (ser : D → Res (List Byte)) (r : Nat) (data : List (Nat × D)) (ps : List Patch) :
    ∀ i, (∀ p ∈ ps, p.nodeOwnerId = r → ∃ d b, mfind data p.idPatch = some d ∧ ser d = .ok b) →
    ∃ l, gatherPayloads ser r data i ps = .ok l ∧
      (∀ m ∈ l, ∃ (j : Nat) (p : Patch) (d : D), ps[j]? = some p ∧ p.nodeOwnerId = r ∧ m.dst = 0 ∧ m.tag = i + j ∧ mfind data p.idPatch = some d ∧ ser d = .ok m.pay) ∧
      (∀ (j : Nat) (p : Patch), ps[j]? = some p → p.nodeOwnerId = r → ∃ m ∈ l, m.dst = 0 ∧ m.tag = i + j) ∧
      (l.map (·.tag)).Nodup ∧ ∀ m ∈ l, i ≤ m.tag := by
  induction ps with
  | nil => intro i _; exact ⟨[], rfl, by simp, by simp, by simp, by simp⟩
  | cons p ps ih =>
    intro i h
    obtain ⟨l, h1, h2, h3, h4, h5⟩ := ih (i + 1) (fun q hq => h q (List.mem_cons_of_mem _ hq))
    have h2' : ∀ m ∈ l, ∃ (j : Nat) (q : Patch) (d : D), (p :: ps)[j]? = some q ∧ q.nodeOwnerId = r ∧ m.dst = 0 ∧ m.tag = i + j ∧ mfind data q.idPatch = some d ∧ ser d = .ok m.pay := by
      intro m hm
      obtain ⟨j, q, d, a, b, c, e, f⟩ := h2 m hm
      exact ⟨j + 1, q, d, by simpa using a, b, c, by omega, f⟩
    by_cases he : p.nodeOwnerId = r
    · obtain ⟨d, b, hd, hb⟩ := h p List.mem_cons_self he
      refine ⟨⟨0, i, b⟩ :: l, ?_, ?_, ?_, ?_, ?_⟩
      · simp only [gatherPayloads, he, if_true, ddGet, hd, hb, h1, Res.bind]
      · intro m hm
        rcases List.mem_cons.1 hm with rfl | hm
        · exact ⟨0, p, d, rfl, he, rfl, rfl, hd, hb⟩
        · exact h2' m hm
      · intro j q hq hr
        cases j with
        | zero => exact ⟨_, List.mem_cons_self, rfl, rfl⟩
        | succ j =>
          obtain ⟨m, a, b, c⟩ := h3 j q (by simpa using hq) hr
          exact ⟨m, List.mem_cons_of_mem _ a, b, by omega⟩
      · rw [List.map_cons, List.nodup_cons]
        refine ⟨fun hm => ?_, h4⟩
        obtain ⟨m, hm, e⟩ := List.mem_map.1 hm
        have := h5 m hm
        simp only at e
        omega
      · intro m hm
        rcases List.mem_cons.1 hm with rfl | hm
        · exact Nat.le_refl _
        · have := h5 m hm; omega
    · refine ⟨l, by simp only [gatherPayloads, he, if_false, h1], h2', ?_, h4, fun m hm => by have := h5 m hm; omega⟩
      intro j q hq hr
      cases j with
      | zero => simp only [List.getElem?_cons_zero, Option.some.injEq] at hq; subst hq; exact absurd hr he
      | succ j =>
        obtain ⟨m, a, b, c⟩ := h3 j q (by simpa using hq) hr
        exact ⟨m, a, b, by omega⟩

theorem sendMessages_ok (l : List (NSend (List Byte))) (h : ∀ m ∈ l, sendCheck m.pay = .ok ()) : sendMessages l = .ok l := by
  induction l with
  | nil => rfl
  | cons m l ih =>
    simp only [sendMessages, h m List.mem_cons_self, Res.bind, ih (fun x hx => h x (List.mem_cons_of_mem _ hx))]

theorem gatherAllocs_ok (got : Nat → Option (List Byte)) : ∀ (n k : Nat), (∀ j < n, ∃ b, got (k + j) = some b ∧ recvAlloc b = .ok ()) → gatherAllocs got k n = .ok () := by
  intro n
  induction n with
  | zero => intro k _; rfl
  | succ n ih =>
    intro k h
    obtain ⟨b, h1, h2⟩ := h 0 (by omega)
    rw [Nat.add_zero] at h1
    simp only [gatherAllocs, h1, h2, Res.bind]
    exact ih (k + 1) (fun j hj => by rw [show k + 1 + j = k + (j + 1) by omega]; exact h (j + 1) (by omega))

theorem gatherDeser_ok {D : Type} (des : List Byte → Res D) (got : Nat → Option (List Byte)) : ∀ (l : List D) (k : Nat),
    (∀ (j : Nat) (d : D), l[j]? = some d → ∃ b, got (k + j) = some b ∧ des b = .ok d) → gatherDeser des got k l.length = .ok l := by
  intro l
  induction l with
  | nil => intro k _; rfl
  | cons d l ih =>
    intro k h
    obtain ⟨b, h1, h2⟩ := h 0 d rfl
    rw [Nat.add_zero] at h1
    simp only [List.length_cons, gatherDeser, h1, h2, Res.bind]
    rw [ih (k + 1) (fun j d' hj => by rw [show k + 1 + j = k + (j + 1) by omega]; exact h (j + 1) d' (by simpa using hj))]

/-- Specification: the patch data in the order of the global patch list, each taken on its owner. -/
def DataInOrder {D : Type} (ps : List Patch) (data : Nat → List (Nat × D)) (l : List D) : Prop :=
  l.length = ps.length ∧ ∀ (i : Nat) (p : Patch), ps[i]? = some p → ∃ d, mfind (data p.nodeOwnerId) p.idPatch = some d ∧ l[i]? = some d

theorem dataInOrder_exists {D : Type} {W : Nat} {ps : List Patch} {data : Nat → List (Nat × D)} (h : Owned W ps data) : ∃ l, DataInOrder ps data l := by
  refine ⟨ps.attach.map (fun p => (h.owner p.1 p.2).2.choose), by simp, fun i p hp => ?_⟩
  have hm := List.mem_of_getElem? hp
  refine ⟨(h.owner p hm).2.choose, (h.owner p hm).2.choose_spec, ?_⟩
  rw [List.getElem?_map]
  obtain ⟨hi, e⟩ := List.getElem?_eq_some_iff.1 hp
  have : ps.attach[i]? = some ⟨p, hm⟩ := by
    rw [List.getElem?_eq_some_iff]
    refine ⟨by simpa using hi, ?_⟩
    apply Subtype.ext
    simp [e]
  rw [this]; rfl

theorem layerBytes_mod8 (tys : List STy) (l : PLayer (List Byte)) : layerBytes tys l % 8 = 0 := by
  unfold layerBytes
  induction tys generalizing l with
  | nil => simp
  | cons t ts ih =>
    cases l with
    | nil => simp
    | cons f r =>
      rw [List.zipWith_cons_cons, List.sum_cons]
      have := ih r
      omega

theorem gather_net {D : Type} (ser : D → Res (List Byte))
    (rank W : Nat) (hw : 0 < W) (ps : List Patch) (data : Nat → List (Nat × D)) (how : Owned W ps data)
    (hser : ∀ r < W, ∀ id d, mfind (data r) id = some d → ∃ b, ser d = .ok b ∧ b.length % 8 = 0 ∧ b.length < 2 ^ 34) :
    ∃ prog : Nat → NProg (List Byte),
      (∀ r < W, gatherSends ser rank r (data r) ps = .ok (prog r).sends ∧ (prog r).recvs = gatherRecvs rank r ps) ∧
      (∀ sf ord n s, NRun W prog sf ord n s → (s.Final W prog ∨ ∃ s', NStep W prog sf ord s s') ∧ n ≤ netTotal W prog) ∧
      ∀ sf ord n s, NRun W prog sf ord n s → s.Final W prog →
        ∀ (j : Nat) (p : Patch) (d : D), ps[j]? = some p → mfind (data p.nodeOwnerId) p.idPatch = some d → ∃ b, s.got 0 j = some b ∧ ser d = .ok b := by
  have hS : ∀ r, ∃ l, r < W → (gatherSends ser rank r (data r) ps = .ok l ∧
      (∀ m ∈ l, ∃ (j : Nat) (p : Patch) (d : D), ps[j]? = some p ∧ p.nodeOwnerId = r ∧ m.dst = 0 ∧ m.tag = j ∧ mfind (data r) p.idPatch = some d ∧ ser d = .ok m.pay) ∧
      (∀ (j : Nat) (p : Patch), ps[j]? = some p → p.nodeOwnerId = r → ∃ m ∈ l, m.dst = 0 ∧ m.tag = j) ∧
      (l.map (·.tag)).Nodup) := by
    intro r
    by_cases hr : r < W
    · obtain ⟨l, h1, h2, h3, h4, -⟩ := gatherPayloads_spec ser r (data r) ps 0 (fun p hp e => by
        obtain ⟨-, d, hd⟩ := how.owner p hp
        rw [e] at hd
        obtain ⟨b, hb, -⟩ := hser r hr _ _ hd
        exact ⟨d, b, hd, hb⟩)
      simp only [Nat.zero_add] at h2 h3
      refine ⟨l, fun _ => ⟨?_, h2, h3, h4⟩⟩
      unfold gatherSends
      rw [h1]
      simp only [Res.bind]
      refine sendMessages_ok l (fun m hm => ?_)
      obtain ⟨j, p, d, -, -, -, -, hd, hb⟩ := h2 m hm
      obtain ⟨b, hb', hb2, hb3⟩ := hser r hr _ _ hd
      rw [hb, Res.ok.injEq] at hb'
      rw [hb']
      unfold sendCheck
      rw [if_neg (by omega), if_neg (by omega)]
    · exact ⟨[], fun h => absurd h hr⟩
  choose sends hsends using hS
  have hrecv : ∀ (k : Nat) (q : NRecv), (gatherRecvs rank 0 ps)[k]? = some q ↔ ∃ p, ps[k]? = some p ∧ q = ⟨p.nodeOwnerId, k⟩ := by
    intro k q
    unfold gatherRecvs
    rw [if_pos rfl, List.getElem?_mapIdx]
    cases ps[k]? with
    | none => simp
    | some p => simp [eq_comm]
  have hlen0 : (gatherRecvs rank 0 ps).length = ps.length := by unfold gatherRecvs; rw [if_pos rfl, List.length_mapIdx]
  have hM : NMatched W (fun r => ⟨sends r, gatherRecvs rank r ps⟩ : Nat → NProg (List Byte)) := by
    refine ⟨fun r hr m hm => ?_, fun r hr q hq => ?_, fun r hr => ?_, fun r hr => ?_⟩
    · obtain ⟨j, p, d, e1, e2, e3, e4, -⟩ := (hsends r hr).2.1 m hm
      rw [e3]
      refine ⟨hw, ?_⟩
      rw [e4]
      exact List.mem_of_getElem? ((hrecv j _).2 ⟨p, e1, by rw [e2]⟩)
    · by_cases h0 : r = 0
      · subst h0
        obtain ⟨k, hk⟩ := List.mem_iff_getElem?.1 hq
        obtain ⟨p, hp, rfl⟩ := (hrecv k q).1 hk
        have hlt := (how.owner p (List.mem_of_getElem? hp)).1
        refine ⟨hlt, ?_⟩
        obtain ⟨m, m1, m2, m3⟩ := (hsends _ hlt).2.2.1 k p hp rfl
        exact ⟨m, m1, m2, m3⟩
      · simp [gatherRecvs, h0] at hq
    · have := (hsends r hr).2.2.2
      refine List.pairwise_map.2 ((List.pairwise_map.1 this).imp (fun {a b} hab e => hab ?_))
      exact congrArg Prod.snd e
    · by_cases h0 : r = 0
      · subst h0
        refine List.nodup_iff_getElem?_ne_getElem?.2 (fun i j hij hj e => ?_)
        change (gatherRecvs rank 0 ps)[i]? = (gatherRecvs rank 0 ps)[j]? at e
        change j < (gatherRecvs rank 0 ps).length at hj
        have hj' : (gatherRecvs rank 0 ps)[j]? = some (gatherRecvs rank 0 ps)[j] := List.getElem?_eq_getElem hj
        rw [hj'] at e
        obtain ⟨p, -, e1⟩ := (hrecv _ _).1 hj'
        obtain ⟨q, -, e2⟩ := (hrecv _ _).1 e
        rw [e1, NRecv.mk.injEq] at e2
        omega
      · show (gatherRecvs rank r ps).Nodup
        simp [gatherRecvs, h0]
  refine ⟨fun r => ⟨sends r, gatherRecvs rank r ps⟩, fun r hr => ⟨(hsends r hr).1, rfl⟩, fun sf ord n s hrun => ?_, fun sf ord n s hrun hfin j p d hp hd => ?_⟩
  · have := netTodo_run hrun
    exact ⟨net_progress hM hrun, by omega⟩
  · have hdel := (net_deliver hM hrun).1
    have hjl : j < ps.length := (List.getElem?_eq_some_iff.1 hp).1
    have hq := (hrecv j _).2 ⟨_, hp, rfl⟩
    have hsome := (hfin 0 hw).2 j (by show j < (gatherRecvs rank 0 ps).length; omega)
    obtain ⟨b, hb⟩ := Option.isSome_iff_exists.1 hsome
    obtain ⟨m, m1, m2, m3, m4⟩ := hdel 0 j b _ hb hq
    have hlt := (how.owner _ (List.mem_of_getElem? hp)).1
    obtain ⟨j', p', d', a1, a2, a3, a4, a5, a6⟩ := (hsends _ hlt).2.1 m m1
    have : j' = j := a4.symm.trans m3
    subst this
    rw [hp, Option.some.injEq] at a1
    subst a1
    rw [hd, Option.some.injEq] at a5
    subst a5
    exact ⟨b, hb, by rw [← m4]; exact a6⟩

/-- **C45 on rank 0.** For any number of ranks, any distribution of the patches and any faithful serialization whose messages are multiples of 8 bytes
and shorter than 2^31 bytes: no rank throws; no execution blocks, and each ends; when all ranks are done, whatever the order of the messages,
`gather_data` returns on rank 0 the data of all patches in the order of the global list, and an empty list on every other rank. What is missing
from the full property: the requested rank is ignored (`C45_rank_ignored_defect`), larger messages (`C45_large_message_defect`). -/
theorem C45_gather_rank0_partial {D : Type} (ser : D → Res (List Byte)) (des : List Byte → Res D)
    (rank W : Nat) (hw : 0 < W) (ps : List Patch) (data : Nat → List (Nat × D)) (how : Owned W ps data)
    (hser : ∀ r < W, ∀ id d, mfind (data r) id = some d → ∃ b, ser d = .ok b ∧ des b = .ok d ∧ b.length % 8 = 0 ∧ b.length < 2 ^ 31) :
    ∃ prog : Nat → NProg (List Byte),
      (∀ r < W, gatherSends ser rank r (data r) ps = .ok (prog r).sends ∧ (prog r).recvs = gatherRecvs rank r ps) ∧
      (∀ sf ord n s, NRun W prog sf ord n s → (s.Final W prog ∨ ∃ s', NStep W prog sf ord s s') ∧ n ≤ netTotal W prog) ∧
      ∀ sf ord n s, NRun W prog sf ord n s → s.Final W prog →
        (∃ l, gatherFinish des rank 0 (s.got 0) ps = .ok l ∧ DataInOrder ps data l) ∧ ∀ r < W, r ≠ 0 → gatherFinish des rank r (s.got r) ps = .ok [] := by
  obtain ⟨prog, g1, g2, g3⟩ := gather_net ser rank W hw ps data how (fun r hr id d hd => by
    obtain ⟨b, b1, -, b2, b3⟩ := hser r hr id d hd
    exact ⟨b, b1, b2, by omega⟩)
  have hlen0 : (gatherRecvs rank 0 ps).length = ps.length := by unfold gatherRecvs; rw [if_pos rfl, List.length_mapIdx]
  refine ⟨prog, g1, g2, fun sf ord n s hrun hfin => ⟨?_, ?_⟩⟩
  · obtain ⟨l, hl1, hl2⟩ := dataInOrder_exists how
    have hgot : ∀ (j : Nat) (d : D), l[j]? = some d → ∃ b, s.got 0 j = some b ∧ des b = .ok d ∧ b.length < 2 ^ 31 := by
      intro j d hj
      have hjl : j < ps.length := by rw [← hl1]; exact (List.getElem?_eq_some_iff.1 hj).1
      have hp : ps[j]? = some ps[j] := List.getElem?_eq_getElem hjl
      obtain ⟨d', hd', hd2⟩ := hl2 j _ hp
      rw [hj, Option.some.injEq] at hd2
      subst hd2
      obtain ⟨b, hb1, hb2⟩ := g3 sf ord n s hrun hfin j _ _ hp hd'
      obtain ⟨b', c1, c2, -, c3⟩ := hser _ (how.owner _ (List.getElem_mem hjl)).1 _ _ hd'
      rw [hb2, Res.ok.injEq] at c1
      subst c1
      exact ⟨b, hb1, c2, c3⟩
    refine ⟨l, ?_, hl1, hl2⟩
    unfold gatherFinish
    rw [hlen0, gatherAllocs_ok (s.got 0) ps.length 0 (fun j hj => ?_)]
    · simp only [Res.bind]
      rw [← hl1]
      refine gatherDeser_ok des _ l 0 (fun j d hj => ?_)
      obtain ⟨b, b1, b2, -⟩ := hgot j d hj
      exact ⟨b, by rw [Nat.zero_add]; exact b1, b2⟩
    · obtain ⟨b, b1, -, b3⟩ := hgot j _ (List.getElem?_eq_getElem (by omega))
      refine ⟨b, by rw [Nat.zero_add]; exact b1, ?_⟩
      unfold recvAlloc
      rw [if_pos (by omega)]
  · intro r hr h0
    simp [gatherFinish, gatherRecvs, h0, gatherAllocs, gatherDeser, Res.bind]

/-- **C45, the requested rank is ignored.** Whenever there is at least one patch, `gather_data(rank)` with `rank ≠ 0` returns on rank `rank` an
empty list, which is not the data asked for. -/
theorem C45_rank_ignored_defect {D : Type} (des : List Byte → Res D) (rank : Nat) (hr : rank ≠ 0) (ps : List Patch) (hps : ps ≠ []) (data : Nat → List (Nat × D))
    (got : Nat → Option (List Byte)) : ∃ l : List D, gatherFinish des rank rank got ps = .ok l ∧ ¬ DataInOrder ps data l := by
  refine ⟨[], by simp [gatherFinish, gatherRecvs, hr, gatherAllocs, gatherDeser, Res.bind], fun h => ?_⟩
  have := h.1
  cases ps with
  | nil => exact hps rfl
  | cons a b => simp at this

theorem gatherAllocs_ub (got : Nat → Option (List Byte)) : ∀ (n k j : Nat), j < n → (∀ i < n, ∃ b, got (k + i) = some b) → (∃ b, got (k + j) = some b ∧ recvAlloc b = .ub) →
    gatherAllocs got k n = .ub := by
  intro n
  induction n with
  | zero => intro k j hj; omega
  | succ n ih =>
    intro k j hj h1 h2
    obtain ⟨b, hb⟩ := h1 0 (by omega)
    rw [Nat.add_zero] at hb
    simp only [gatherAllocs, hb]
    cases hal : recvAlloc b with
    | ub => rfl
    | throws => unfold recvAlloc at hal; split at hal <;> cases hal
    | ok _ =>
      simp only [Res.bind]
      cases j with
      | zero =>
        obtain ⟨b', c1, c2⟩ := h2
        rw [Nat.add_zero, hb, Option.some.injEq] at c1
        subst c1
        rw [hal] at c2; cases c2
      | succ j =>
        exact ih (k + 1) j (by omega) (fun i hi => by rw [show k + 1 + i = k + (i + 1) by omega]; exact h1 (i + 1) (by omega))
          (by rw [show k + 1 + j = k + (j + 1) by omega]; exact h2)

/-- **C45 on the actual patch data.** The same with the serialization of the code: layers of one layout of fewer than 2^31 bytes each. -/
theorem C45_gather_layers_partial (tys : List STy) (lay : List Nat) (env env' : SerEnv) (junk : Nat → List Byte)
    (rank W : Nat) (hw : 0 < W) (ps : List Patch) (data : Nat → List (Nat × PLayer (List Byte))) (how : Owned W ps data)
    (hd : ∀ r < W, ∀ id l, mfind (data r) id = some l → l.Typed tys ∧ l.map (·.nvar) = lay ∧ layerBytes tys l + 8 < 2 ^ 31) :
    ∃ prog : Nat → NProg (List Byte),
      (∀ r < W, gatherSends (layerSer env tys) rank r (data r) ps = .ok (prog r).sends ∧ (prog r).recvs = gatherRecvs rank r ps) ∧
      (∀ sf ord n s, NRun W prog sf ord n s → (s.Final W prog ∨ ∃ s', NStep W prog sf ord s s') ∧ n ≤ netTotal W prog) ∧
      ∀ sf ord n s, NRun W prog sf ord n s → s.Final W prog →
        (∃ l, gatherFinish (layerDeser env' junk tys lay) rank 0 (s.got 0) ps = .ok l ∧ DataInOrder ps data l) ∧
        ∀ r < W, r ≠ 0 → gatherFinish (layerDeser env' junk tys lay) rank r (s.got r) ps = .ok [] := by
  refine C45_gather_rank0_partial _ _ rank W hw ps data how (fun r hr id l hl => ?_)
  obtain ⟨h1, h2, h3⟩ := hd r hr id l hl
  obtain ⟨b, b1, b2, b3⟩ := C50_layer_roundtrip tys l h1 (by omega) env
  refine ⟨b, b1, by rw [← h2]; exact b3 env' junk, ?_, by omega⟩
  rw [b2]
  have := layerBytes_mod8 tys l
  omega

/-- **C45, large patches.** If one patch has between 2^31 and 2^32 bytes, serialization and sends succeed on all ranks, all messages arrive, and then
rank 0 has undefined behaviour (a signed 32 bit overflow in the size of the receive buffer). -/
theorem C45_large_message_defect (tys : List STy) (lay : List Nat) (env env' : SerEnv) (junk : Nat → List Byte)
    (rank W : Nat) (hw : 0 < W) (ps : List Patch) (data : Nat → List (Nat × PLayer (List Byte))) (how : Owned W ps data)
    (hd : ∀ r < W, ∀ id l, mfind (data r) id = some l → l.Typed tys ∧ l.map (·.nvar) = lay ∧ layerBytes tys l + 8 < 2 ^ 32)
    (hbig : ∃ p ∈ ps, ∃ l, mfind (data p.nodeOwnerId) p.idPatch = some l ∧ 2 ^ 31 ≤ layerBytes tys l + 8) :
    ∃ prog : Nat → NProg (List Byte),
      (∀ r < W, gatherSends (layerSer env tys) rank r (data r) ps = .ok (prog r).sends ∧ (prog r).recvs = gatherRecvs rank r ps) ∧
      (∀ sf ord n s, NRun W prog sf ord n s → (s.Final W prog ∨ ∃ s', NStep W prog sf ord s s') ∧ n ≤ netTotal W prog) ∧
      ∀ sf ord n s, NRun W prog sf ord n s → s.Final W prog → gatherFinish (layerDeser env' junk tys lay) rank 0 (s.got 0) ps = .ub := by
  have hser : ∀ r < W, ∀ id l, mfind (data r) id = some l → ∃ b, layerSer env tys l = .ok b ∧ b.length % 8 = 0 ∧ b.length < 2 ^ 34 := by
    intro r hr id l hl
    obtain ⟨h1, h2, h3⟩ := hd r hr id l hl
    obtain ⟨b, b1, b2, -⟩ := C50_layer_roundtrip tys l h1 h3 env
    have := layerBytes_mod8 tys l
    exact ⟨b, b1, by omega, by omega⟩
  obtain ⟨prog, g1, g2, g3⟩ := gather_net (layerSer env tys) rank W hw ps data how hser
  have hlen0 : (gatherRecvs rank 0 ps).length = ps.length := by unfold gatherRecvs; rw [if_pos rfl, List.length_mapIdx]
  refine ⟨prog, g1, g2, fun sf ord n s hrun hfin => ?_⟩
  obtain ⟨p, hp, l, hl, hbl⟩ := hbig
  obtain ⟨j, hj⟩ := List.mem_iff_getElem?.1 hp
  have hjl := (List.getElem?_eq_some_iff.1 hj).1
  unfold gatherFinish
  rw [hlen0, gatherAllocs_ub (s.got 0) ps.length 0 j hjl]
  · rfl
  · intro i hi
    have hpi : ps[i]? = some ps[i] := List.getElem?_eq_getElem hi
    obtain ⟨d, hd'⟩ := (how.owner _ (List.getElem_mem hi)).2
    obtain ⟨b, hb, -⟩ := g3 sf ord n s hrun hfin i _ _ hpi hd'
    exact ⟨b, by rw [Nat.zero_add]; exact hb⟩
  · obtain ⟨b, hb, hb2⟩ := g3 sf ord n s hrun hfin j _ _ hj hl
    obtain ⟨h1, h2, h3⟩ := hd _ (how.owner _ hp).1 _ l hl
    obtain ⟨b', c1, c2, -⟩ := C50_layer_roundtrip tys l h1 h3 env
    rw [hb2, Res.ok.injEq] at c1
    subst c1
    refine ⟨b, by rw [Nat.zero_add]; exact hb, ?_⟩
    have := layerBytes_mod8 tys l
    unfold recvAlloc
    rw [if_neg (by omega)]

/-- The serializer of `apply_change_list` with the checks of `send_messages`, SchedulerPatchData.cpp:52-60 and 108-113. -/
def aclSer (env : SerEnv) (tys : List STy) (l : PLayer (List Byte)) : Res (List Byte) := (layerSer env tys l).bind fun b => (sendCheck b).bind fun _ => .ok b

/-- **C34 on the actual patch data.** Load balancing, then moving the layers of all patches with the serialization of the code (each layer of the
layout of the scheduler, below 2^32 bytes): never blocks, always ends, and each patch has then its unchanged layer on its new owner. -/
theorem C34_balance_layers (tys : List STy) (lay : List Nat) (env env' : SerEnv) (junk : Nat → List Byte)
    (R : F64Rnd) (S : SortImpl) (hilb : V3 Nat → Nat) (W : Nat) (hw : 0 < W) (hw2 : W < 2 ^ 31) (ps : List Patch) (order : List Nat)
    (data : Nat → List (Nat × PLayer (List Byte))) (hps : PatchListOk W ps) (ho : order.Perm (List.range ps.length)) (how : Owned W ps data)
    (hd : ∀ r < W, ∀ id l, mfind (data r) id = some l → l.Typed tys ∧ l.map (·.nvar) = lay ∧ layerBytes tys l + 8 < 2 ^ 32) :
    ∃ ops ps', makeChangeList R S hilb W order ps = .ok ops ∧ aclOwners ops ps = .ok ps' ∧
      (∃ own, OwnerTable hilb W ps own ∧ ps' = List.zipWith (fun p o => { p with nodeOwnerId := o }) ps own) ∧
      (∃ prog : Nat → NProg (List Byte), ∀ r < W, aclSends (aclSer env tys) r (data r) ops = .ok (prog r).sends ∧ (prog r).recvs = aclRecvs r ops) ∧
      ∀ prog : Nat → NProg (List Byte), (∀ r < W, aclSends (aclSer env tys) r (data r) ops = .ok (prog r).sends ∧ (prog r).recvs = aclRecvs r ops) →
      (∀ sf ord n s, NRun W prog sf ord n s → (s.Final W prog ∨ ∃ s', NStep W prog sf ord s s') ∧ n ≤ netTotal W prog) ∧
      ∀ sf ord n s, NRun W prog sf ord n s → s.Final W prog → ∃ data' : Nat → List (Nat × PLayer (List Byte)),
        (∀ r < W, aclFinish (layerDeser env' junk tys lay) r (s.got r) ops (data r) = .ok (data' r)) ∧ Owned W ps' data' ∧
        ∀ p ∈ ps, ∀ p' ∈ ps', p.idPatch = p'.idPatch → mfind (data' p'.nodeOwnerId) p.idPatch = mfind (data p.nodeOwnerId) p.idPatch := by
  refine C34_balance_then_apply (aclSer env tys) (layerDeser env' junk tys lay) R S hilb W hw hw2 ps order data hps ho how (fun r hr id l hl => ?_)
  obtain ⟨h1, h2, h3⟩ := hd r hr id l hl
  obtain ⟨b, b1, b2, b3⟩ := C50_layer_roundtrip tys l h1 h3 env
  have := layerBytes_mod8 tys l
  refine ⟨b, ?_, by rw [← h2]; exact b3 env' junk⟩
  unfold aclSer
  rw [b1]
  simp only [Res.bind]
  unfold sendCheck
  rw [if_neg (by omega), if_neg (by omega)]

/-! Concrete cases: two ranks, three patches (the second one empty); one rank with one patch of 2^31 + 8 bytes. -/
def gEx : List Patch := [⟨7, 0, 5, ⟨⟨0, 0, 0⟩, ⟨1, 1, 1⟩⟩, 1⟩, ⟨8, 0, 5, ⟨⟨2, 0, 0⟩, ⟨3, 1, 1⟩⟩, 0⟩, ⟨9, 0, 5, ⟨⟨4, 0, 0⟩, ⟨5, 1, 1⟩⟩, 1⟩]
def gExData : Nat → List (Nat × PLayer (List Byte)) := fun r =>
  if r = 0 then [(8, [⟨2, []⟩])] else [(7, [⟨2, [[1, 2, 3, 4], [5, 6, 7, 8]]⟩]), (9, [⟨2, [[9, 9, 9, 9], [8, 8, 8, 8], [7, 7, 7, 7], [6, 6, 6, 6]]⟩])]

theorem mfind_mem' {V : Type} (m : List (Nat × V)) (id : Nat) (v : V) (h : mfind m id = some v) : (id, v) ∈ m := by
  induction m with
  | nil => cases h
  | cons kv m ih =>
    obtain ⟨k, w⟩ := kv
    simp only [mfind] at h
    split at h
    · rename_i e
      rw [Option.some.injEq] at h
      rw [e, h]; exact List.mem_cons_self
    · exact List.mem_cons_of_mem _ (ih h)

example : Owned 2 gEx gExData ∧ gEx ≠ [] ∧ ∀ r < 2, ∀ id l, mfind (gExData r) id = some l → l.Typed [⟨4, 1, 4⟩] ∧ l.map (·.nvar) = [2] ∧ layerBytes [⟨4, 1, 4⟩] l + 8 < 2 ^ 31 := by
  refine ⟨⟨?_, by decide, ?_, ?_⟩, by decide, ?_⟩
  · intro r hr
    rcases (by omega : r = 0 ∨ r = 1) with rfl | rfl <;> simp [MapOk, gExData]
  · intro p hp
    simp only [gEx, List.mem_cons, List.not_mem_nil, or_false] at hp
    rcases hp with rfl | rfl | rfl <;> exact ⟨by decide, _, rfl⟩
  · intro r hr id d hd
    have := mfind_mem' _ _ _ hd
    rcases (by omega : r = 0 ∨ r = 1) with rfl | rfl
    · simp only [gExData, if_true, List.mem_cons, List.not_mem_nil, or_false, Prod.mk.injEq] at this
      exact ⟨⟨8, 0, 5, ⟨⟨2, 0, 0⟩, ⟨3, 1, 1⟩⟩, 0⟩, by decide, this.1.symm, rfl⟩
    · simp only [gExData, Nat.one_ne_zero, if_false, List.mem_cons, List.not_mem_nil, or_false, Prod.mk.injEq] at this
      rcases this with h | h
      · exact ⟨⟨7, 0, 5, ⟨⟨0, 0, 0⟩, ⟨1, 1, 1⟩⟩, 1⟩, by decide, h.1.symm, rfl⟩
      · exact ⟨⟨9, 0, 5, ⟨⟨4, 0, 0⟩, ⟨5, 1, 1⟩⟩, 1⟩, by decide, h.1.symm, rfl⟩
  · intro r hr id l hl
    have := mfind_mem' _ _ _ hl
    have ht : ∀ b : List (List Byte), b.length % 2 = 0 → b.length < 2 ^ 32 → (∀ v ∈ b, v.length = 4) → PLayer.Typed [⟨4, 1, 4⟩] [⟨2, b⟩] := fun b h1 h2 h3 =>
      .cons ⟨by unfold STy.Ok; decide, ⟨Nat.zero_lt_two, Nat.dvd_of_mod_eq_zero h1, h2⟩, h3⟩ .nil
    rcases (by omega : r = 0 ∨ r = 1) with rfl | rfl
    · simp only [gExData, if_true, List.mem_cons, List.not_mem_nil, or_false, Prod.mk.injEq] at this
      rw [this.2]
      exact ⟨ht _ (by decide) (by decide) (by decide), rfl, by decide⟩
    · simp only [gExData, Nat.one_ne_zero, if_false, List.mem_cons, List.not_mem_nil, or_false, Prod.mk.injEq] at this
      rcases this with h | h <;> rw [h.2] <;> exact ⟨ht _ (by decide) (by decide) (by decide), rfl, by decide⟩

def gBigF (n : Nat) : PLayer (List Byte) := [⟨1, List.replicate n [1, 2, 3, 4]⟩]

theorem gBigF_typed (n : Nat) (hn : n < 2 ^ 32) : (gBigF n).Typed [⟨4, 1, 4⟩] ∧ layerBytes [⟨4, 1, 4⟩] (gBigF n) = 8 + (n * 4 + 7) / 8 * 8 := by
  refine ⟨.cons ⟨by unfold STy.Ok; decide, ⟨Nat.one_pos, ⟨n, ?_⟩, ?_⟩, ?_⟩ .nil, ?_⟩
  · simp
  · simpa using hn
  · intro v hv; rw [List.eq_of_mem_replicate hv]; rfl
  · simp only [layerBytes, gBigF, List.zipWith_cons_cons, List.zipWith_nil_left, List.sum_cons, List.sum_nil, List.length_replicate, Nat.add_zero]
    rfl

/-- The hypotheses of `C45_large_message_defect`: one rank, one patch, 2^29 values of 4 bytes. -/
example : ∃ data : Nat → List (Nat × PLayer (List Byte)), Owned 1 [⟨7, 0, 5, ⟨⟨0, 0, 0⟩, ⟨1, 1, 1⟩⟩, 0⟩] data ∧
    (∀ r < 1, ∀ id l, mfind (data r) id = some l → l.Typed [⟨4, 1, 4⟩] ∧ l.map (·.nvar) = [1] ∧ layerBytes [⟨4, 1, 4⟩] l + 8 < 2 ^ 32) ∧
    ∃ l, mfind (data 0) 7 = some l ∧ 2 ^ 31 ≤ layerBytes [⟨4, 1, 4⟩] l + 8 := by
  obtain ⟨n, hn⟩ : ∃ n : Nat, n = 2 ^ 29 := ⟨_, rfl⟩
  obtain ⟨h1, h2⟩ := gBigF_typed n (by omega)
  have hf : ∀ id l, mfind [(7, gBigF n)] id = some l → id = 7 ∧ l = gBigF n := by
    intro id l h
    have := mfind_mem' _ _ _ h
    simpa using this
  refine ⟨fun _ => [(7, gBigF n)], ⟨fun r _ => by simp [MapOk], by decide, ?_, ?_⟩, ?_, gBigF n, rfl, ?_⟩
  · intro p hp
    rw [List.mem_singleton] at hp
    subst hp
    exact ⟨by decide, gBigF n, rfl⟩
  · intro r hr id d hd
    obtain ⟨rfl, -⟩ := hf id d hd
    exact ⟨_, List.mem_singleton.2 rfl, rfl, by show 0 = r; omega⟩
  · intro r hr id l hl
    obtain ⟨-, rfl⟩ := hf id l hl
    exact ⟨h1, rfl, by omega⟩
  · omega

end Shamrock
