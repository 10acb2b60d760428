import Verif.Model.ChangeList
import Verif.Proof.Net
import Verif.Props.Containers
import Verif.Props.LoadBalance
/-! Property C34: applying a change list. -/
namespace Shamrock

/-- What `apply_change_list` needs: a well formed list, and the data of each moved patch on its old owner only. -/
structure AclOk {D P : Type} (ser : D → Res P) (W : Nat) (data : Nat → List (Nat × D)) (ops : List ChangeOp) : Prop where
  ranks : ∀ op ∈ ops, op.ownerOld < W ∧ op.ownerNew < W ∧ op.ownerOld ≠ op.ownerNew
  ids : (ops.map (·.patchId)).Nodup
  tags : ops.Pairwise (fun a b => a.ownerOld = b.ownerOld → a.tag ≠ b.tag)
  maps : ∀ r < W, MapOk (data r)
  here : ∀ op ∈ ops, ∃ d p, mfind (data op.ownerOld) op.patchId = some d ∧ ser d = .ok p
  fresh : ∀ op ∈ ops, ∀ r < W, r ≠ op.ownerOld → mfind (data r) op.patchId = none

theorem aclSends_spec {D P : Type} (ser : D → Res P) (r : Nat) (data : List (Nat × D)) (ops : List ChangeOp)
    (h : ∀ op ∈ ops, op.ownerOld = r → ∃ d p, mfind data op.patchId = some d ∧ ser d = .ok p) :
    ∃ l, aclSends ser r data ops = .ok l ∧
      l.map (fun m => (m.dst, m.tag)) = (ops.filter fun op => op.ownerOld = r).map (fun op => (op.ownerNew, op.tag)) ∧
      ∀ m ∈ l, ∃ op ∈ ops, op.ownerOld = r ∧ op.ownerNew = m.dst ∧ op.tag = m.tag ∧ ∃ d, mfind data op.patchId = some d ∧ ser d = .ok m.pay := by
  induction ops with
  | nil => exact ⟨[], rfl, rfl, by simp⟩
  | cons op ops ih =>
    obtain ⟨l, h1, h2, h3⟩ := ih (fun o ho => h o (List.mem_cons_of_mem _ ho))
    have h3' : ∀ m ∈ l, ∃ o ∈ op :: ops, o.ownerOld = r ∧ o.ownerNew = m.dst ∧ o.tag = m.tag ∧ ∃ d, mfind data o.patchId = some d ∧ ser d = .ok m.pay := by
      intro m hm
      obtain ⟨o, ho, hr⟩ := h3 m hm
      exact ⟨o, List.mem_cons_of_mem _ ho, hr⟩
    by_cases he : op.ownerOld = r
    · obtain ⟨d, p, hd, hp⟩ := h op List.mem_cons_self he
      refine ⟨⟨op.ownerNew, op.tag, p⟩ :: l, ?_, ?_, ?_⟩
      · simp only [aclSends, he, if_true, ddGet, hd, hp, h1, Res.bind]
      · rw [List.map_cons, h2]; simp [he]
      · intro m hm
        rcases List.mem_cons.1 hm with rfl | hm
        · exact ⟨op, List.mem_cons_self, he, rfl, rfl, d, hd, hp⟩
        · exact h3' m hm
    · refine ⟨l, ?_, ?_, h3'⟩
      · simp only [aclSends, he, if_false, h1]
      · rw [h2]; simp [he]

theorem aclInsert_spec {D P : Type} (des : P → Res D) (r : Nat) (got : Nat → Option P) (src : Nat → Option D) (ops : List ChangeOp)
    (idx : Nat) (m : List (Nat × D)) (hm : MapOk m) (hnd : (ops.map (·.patchId)).Nodup)
    (hg : ∀ (j : Nat) op, (ops.filter fun op => op.ownerNew = r)[j]? = some op → ∃ p d, got (idx + j) = some p ∧ des p = .ok d ∧ src op.patchId = some d)
    (hf : ∀ op ∈ ops, op.ownerNew = r → mfind m op.patchId = none) :
    ∃ m', aclInsert des r got ops idx m = .ok m' ∧ MapOk m' ∧
      (∀ op ∈ ops, op.ownerNew = r → mfind m' op.patchId = src op.patchId) ∧
      ∀ id, (∀ op ∈ ops, op.ownerNew = r → op.patchId ≠ id) → mfind m' id = mfind m id := by
  induction ops generalizing idx m with
  | nil => exact ⟨m, rfl, hm, by simp, by simp⟩
  | cons op ops ih =>
    rw [List.map_cons, List.nodup_cons] at hnd
    by_cases he : op.ownerNew = r
    · obtain ⟨p, d, h1, h2, h3⟩ := hg 0 op (by simp [he])
      obtain ⟨s1, s2, s3, -⟩ := memplace_spec m hm op.patchId d
      have hnone := hf op List.mem_cons_self he
      obtain ⟨m', i1, i2, i3, i4⟩ := ih (idx + 1) (memplace m op.patchId d).1 s1 hnd.2
        (fun j o ho => by
          obtain ⟨p', d', a, b, c⟩ := hg (j + 1) o (by simpa [he] using ho)
          exact ⟨p', d', by rw [show idx + 1 + j = idx + (j + 1) by omega]; exact a, b, c⟩)
        (fun o ho hor => by
          rw [s3, if_neg]
          · exact hf o (List.mem_cons_of_mem _ ho) hor
          · rintro ⟨e, -⟩
            exact hnd.1 (by rw [← e]; exact List.mem_map_of_mem (f := (·.patchId)) ho))
      have hadd : ddAddObj m op.patchId d = ((memplace m op.patchId d).1, some ()) := by
        simp only [ddAddObj, s2, hnone, Option.isNone_none, Bool.not_true, Bool.false_eq_true, if_false]
      refine ⟨m', ?_, i2, ?_, ?_⟩
      · simp only [Nat.add_zero] at h1
        simp only [aclInsert, he, if_true, h1, h2, Res.bind, hadd, i1]
      · intro o ho hor
        rcases List.mem_cons.1 ho with rfl | ho
        · rw [i4 _ (fun o' ho' _ e => hnd.1 (by rw [← e]; exact List.mem_map_of_mem (f := (·.patchId)) ho')), s3, if_pos ⟨rfl, hnone⟩, h3]
        · exact i3 o ho hor
      · intro id hid
        rw [i4 id (fun o ho => hid o (List.mem_cons_of_mem _ ho)), s3, if_neg]
        rintro ⟨e, -⟩
        exact hid op List.mem_cons_self he e.symm
    · obtain ⟨m', i1, i2, i3, i4⟩ := ih idx m hm hnd.2
        (fun j o ho => hg j o (by simpa [he] using ho)) (fun o ho => hf o (List.mem_cons_of_mem _ ho))
      refine ⟨m', by simp only [aclInsert, he, if_false, i1], i2, fun o ho hor => ?_, fun id hid => i4 id (fun o ho => hid o (List.mem_cons_of_mem _ ho))⟩
      rcases List.mem_cons.1 ho with rfl | ho
      · exact absurd hor he
      · exact i3 o ho hor

theorem aclErase_spec {D : Type} (r : Nat) (ops : List ChangeOp) (m : List (Nat × D)) (hm : MapOk m) :
    MapOk (aclErase r ops m) ∧
    (∀ op ∈ ops, op.ownerOld = r → mfind (aclErase r ops m) op.patchId = none) ∧
    (∀ id, mfind m id = none → mfind (aclErase r ops m) id = none) ∧
    ∀ id, (∀ op ∈ ops, op.ownerOld = r → op.patchId ≠ id) → mfind (aclErase r ops m) id = mfind m id := by
  induction ops generalizing m with
  | nil => exact ⟨hm, by simp, fun _ h => h, fun _ _ => rfl⟩
  | cons op ops ih =>
    obtain ⟨e1, e2, -⟩ := merase_spec m hm op.patchId
    by_cases he : op.ownerOld = r
    · obtain ⟨i1, i2, i3, i4⟩ := ih (ddErase m op.patchId) e1
      simp only [aclErase, he, if_true]
      refine ⟨i1, fun o ho hor => ?_, fun id hid => i3 id ?_, fun id hid => ?_⟩
      · rcases List.mem_cons.1 ho with rfl | ho
        · exact i3 _ (by unfold ddErase; rw [e2, if_pos rfl])
        · exact i2 o ho hor
      · unfold ddErase; rw [e2]; split <;> [rfl; exact hid]
      · rw [i4 id (fun o ho => hid o (List.mem_cons_of_mem _ ho))]
        unfold ddErase
        rw [e2, if_neg (fun e => hid op List.mem_cons_self he e.symm)]
    · obtain ⟨i1, i2, i3, i4⟩ := ih m hm
      simp only [aclErase, he, if_false]
      refine ⟨i1, fun o ho hor => ?_, i3, fun id hid => i4 id (fun o ho => hid o (List.mem_cons_of_mem _ ho))⟩
      rcases List.mem_cons.1 ho with rfl | ho
      · exact absurd hor he
      · exact i2 o ho hor

/-- **C34.** On every well formed change list, on any number of ranks and for any serialisation faithful on the moved data: no rank throws while preparing its
messages; no execution blocks and every execution ends; and in every final state, whatever the order of the messages, every rank finishes
without error, each moved patch's data is, unchanged, on its new owner and nowhere else, and all other data is untouched. -/
theorem C34_apply_change_list {D P : Type} (ser : D → Res P) (des : P → Res D) (W : Nat) (data : Nat → List (Nat × D)) (ops : List ChangeOp)
    (hcodec : ∀ op ∈ ops, ∀ d p, mfind (data op.ownerOld) op.patchId = some d → ser d = .ok p → des p = .ok d) (h : AclOk ser W data ops) :
    (∃ prog : Nat → NProg P, ∀ r < W, aclSends ser r (data r) ops = .ok (prog r).sends ∧ (prog r).recvs = aclRecvs r ops) ∧
    ∀ prog : Nat → NProg P, (∀ r < W, aclSends ser r (data r) ops = .ok (prog r).sends ∧ (prog r).recvs = aclRecvs r ops) →
      (∀ sf ord n s, NRun W prog sf ord n s → (s.Final W prog ∨ ∃ s', NStep W prog sf ord s s') ∧ n ≤ netTotal W prog) ∧
      ∀ sf ord n s, NRun W prog sf ord n s → s.Final W prog → ∀ r < W, ∃ m,
        aclFinish des r (s.got r) ops (data r) = .ok m ∧ MapOk m ∧
        (∀ op ∈ ops, mfind m op.patchId = if r = op.ownerNew then mfind (data op.ownerOld) op.patchId else none) ∧
        ∀ id, (∀ op ∈ ops, op.patchId ≠ id) → mfind m id = mfind (data r) id := by
  have hS : ∀ r, ∃ l, r < W → (aclSends ser r (data r) ops = .ok l ∧
      l.map (fun m => (m.dst, m.tag)) = (ops.filter fun op => op.ownerOld = r).map (fun op => (op.ownerNew, op.tag)) ∧
      ∀ m ∈ l, ∃ op ∈ ops, op.ownerOld = r ∧ op.ownerNew = m.dst ∧ op.tag = m.tag ∧
        ∃ d, mfind (data r) op.patchId = some d ∧ ser d = .ok m.pay) := by
    intro r
    by_cases hr : r < W
    · obtain ⟨l, hl⟩ := aclSends_spec ser r (data r) ops (fun op ho e => by rw [← e]; exact h.here op ho)
      exact ⟨l, fun _ => hl⟩
    · exact ⟨[], fun h => absurd h hr⟩
  choose sends0 hsends0 using hS
  refine ⟨⟨fun r => ⟨sends0 r, aclRecvs r ops⟩, fun r hr => ⟨(hsends0 r hr).1, rfl⟩⟩, fun prog hprog => ?_⟩
  obtain ⟨sends, hsd⟩ : ∃ f : Nat → List (NSend P), f = fun r => (prog r).sends := ⟨_, rfl⟩
  have hsends : ∀ r < W, (aclSends ser r (data r) ops = .ok (sends r) ∧
      (sends r).map (fun m => (m.dst, m.tag)) = (ops.filter fun op => op.ownerOld = r).map (fun op => (op.ownerNew, op.tag)) ∧
      ∀ m ∈ sends r, ∃ op ∈ ops, op.ownerOld = r ∧ op.ownerNew = m.dst ∧ op.tag = m.tag ∧
        ∃ d, mfind (data r) op.patchId = some d ∧ ser d = .ok m.pay) := by
    intro r hr
    have h1 := hsends0 r hr
    have h2 := (hprog r hr).1
    rw [h1.1, Res.ok.injEq] at h2
    have h3 : sends r = sends0 r := by rw [hsd]; exact h2.symm
    rw [h3]
    exact h1
  have hsr : ∀ r, (prog r).sends = sends r := fun r => by rw [hsd]
  have hM : NMatched W prog := by
    refine ⟨fun r hr m hm => ?_, fun r hr q hq => ?_, fun r hr => ?_, fun r hr => ?_⟩
    · rw [hsr] at hm
      obtain ⟨op, ho, e1, e2, e3, -⟩ := (hsends r hr).2.2 m hm
      have hlt : m.dst < W := by rw [← e2]; exact (h.ranks op ho).2.1
      refine ⟨hlt, ?_⟩
      rw [(hprog _ hlt).2]
      rw [← e1, ← e3]
      exact List.mem_map.2 ⟨op, List.mem_filter.2 ⟨ho, by simpa using e2⟩, rfl⟩
    · rw [(hprog _ hr).2] at hq
      obtain ⟨op, ho, rfl⟩ := List.mem_map.1 hq
      obtain ⟨ho, hn⟩ := List.mem_filter.1 ho
      simp only [decide_eq_true_eq] at hn
      have hlt := (h.ranks op ho).1
      refine ⟨hlt, ?_⟩
      rw [hsr]
      have : (op.ownerNew, op.tag) ∈ (sends op.ownerOld).map (fun m => (m.dst, m.tag)) := by
        rw [(hsends op.ownerOld hlt).2.1]
        exact List.mem_map.2 ⟨op, List.mem_filter.2 ⟨ho, by simp⟩, rfl⟩
      obtain ⟨m, hm, e⟩ := List.mem_map.1 this
      simp only [Prod.mk.injEq] at e
      exact ⟨m, hm, e.1.trans hn, e.2⟩
    · rw [hsr, (hsends r hr).2.1]
      refine List.pairwise_map.2 (((h.tags.filter _).imp_of_mem) (fun {a b} ha hb hab e => ?_))
      simp only [List.mem_filter, decide_eq_true_eq] at ha hb
      exact hab (ha.2.trans hb.2.symm) (congrArg Prod.snd e)
    · rw [(hprog _ hr).2]
      refine List.pairwise_map.2 ((h.tags.filter _).imp (fun {a b} hab e => ?_))
      simp only [NRecv.mk.injEq] at e
      exact hab e.1 e.2
  refine ⟨fun sf ord n s hrun => ?_, fun sf ord n s hrun hfin r hr => ?_⟩
  · have := netTodo_run hrun
    exact ⟨net_progress hM hrun, by omega⟩
  · have hdel := (net_deliver hM hrun).1
    have key : ∀ op ∈ ops, ∀ op' ∈ ops, op.patchId = op'.patchId → op = op' := by
      intro op ho op' ho' e
      exact List.inj_on_of_nodup_map h.ids ho ho' e
    -- the data found on the old owner of the op with a given id
    classical
    let src : Nat → Option D := fun id => if hx : ∃ op ∈ ops, op.patchId = id then mfind (data hx.choose.ownerOld) id else none
    have hsrc : ∀ op ∈ ops, src op.patchId = mfind (data op.ownerOld) op.patchId := by
      intro op ho
      have hx : ∃ o ∈ ops, o.patchId = op.patchId := ⟨op, ho, rfl⟩
      have : hx.choose = op := key _ hx.choose_spec.1 _ ho hx.choose_spec.2
      simp only [src, dif_pos hx, this]
    obtain ⟨m', i1, i2, i3, i4⟩ := aclInsert_spec des r (s.got r) src ops 0 (data r) (h.maps r hr) h.ids
      (fun j op hj => by
        have hmem := List.mem_of_getElem? hj
        obtain ⟨ho, hn⟩ := List.mem_filter.1 hmem
        simp only [decide_eq_true_eq] at hn
        have hq : (aclRecvs r ops)[j]? = some ⟨op.ownerOld, op.tag⟩ := by
          unfold aclRecvs; rw [List.getElem?_map, hj]; rfl
        have hq' : (prog r).recvs[j]? = some ⟨op.ownerOld, op.tag⟩ := by rw [(hprog _ hr).2]; exact hq
        have hsome := (hfin r hr).2 j (List.getElem?_eq_some_iff.1 hq').1
        obtain ⟨p, hp⟩ := Option.isSome_iff_exists.1 hsome
        obtain ⟨ms, hms, e1, e2, e3⟩ := hdel r j p _ hp hq'
        rw [hsr] at hms
        obtain ⟨op', ho', f1, f2, f3, d, f4, f5⟩ := (hsends op.ownerOld (h.ranks op ho).1).2.2 ms hms
        have : op' = op := by
          rcases pairwise_mem h.tags ho' ho with e | hh | hh
          · exact e
          · exact absurd (f3.trans e2) (hh f1)
          · exact absurd (f3.trans e2).symm (hh f1.symm)
        subst this
        rw [e3] at f5
        exact ⟨p, d, by rw [Nat.zero_add]; exact hp, hcodec op' ho _ _ f4 f5, by rw [hsrc op' ho]; exact f4⟩)
      (fun op ho hn => h.fresh op ho r hr (fun e => (h.ranks op ho).2.2 (by rw [hn, e])))
    obtain ⟨j1, j2, j3, j4⟩ := aclErase_spec r ops m' i2
    refine ⟨_, by simp only [aclFinish, i1, Res.bind], j1, fun op ho => ?_, fun id hid => ?_⟩
    · by_cases hn : r = op.ownerNew
      · rw [if_pos hn, j4, i3 op ho hn.symm, hsrc op ho]
        intro o' ho' e1 e2
        have := key _ ho' _ ho e2
        subst this
        exact (h.ranks _ ho).2.2 (e1.trans hn)
      · rw [if_neg hn]
        by_cases ho2 : op.ownerOld = r
        · exact j2 op ho ho2
        · apply j3
          rw [i4]
          · exact h.fresh op ho r hr (fun e => ho2 e.symm)
          · intro o' ho' e1 e2
            have := key _ ho' _ ho e2
            subst this
            exact hn e1.symm
    · rw [j4 id (fun o ho _ => hid o ho), i4 id (fun o ho _ => hid o ho)]

theorem aclOwners_spec (ops : List ChangeOp) (ps : List Patch) (h : ∀ op ∈ ops, op.patchIdx < ps.length)
    (hnd : (ops.map (·.patchIdx)).Nodup) :
    ∃ ps', aclOwners ops ps = .ok ps' ∧ ps'.length = ps.length ∧
      (∀ op ∈ ops, ∀ p, ps[op.patchIdx]? = some p → ps'[op.patchIdx]? = some { p with nodeOwnerId := op.ownerNew }) ∧
      ∀ i : Nat, (∀ op ∈ ops, op.patchIdx ≠ i) → ps'[i]? = ps[i]? := by
  induction ops generalizing ps with
  | nil => exact ⟨ps, rfl, rfl, by simp, by simp⟩
  | cons op ops ih =>
    rw [List.map_cons, List.nodup_cons] at hnd
    have hl := h op List.mem_cons_self
    obtain ⟨ps', h1, h2, h3, h4⟩ := ih (ps.set op.patchIdx { ps[op.patchIdx] with nodeOwnerId := op.ownerNew })
      (fun o ho => by rw [List.length_set]; exact h o (List.mem_cons_of_mem _ ho)) hnd.2
    have hne : ∀ o ∈ ops, op.patchIdx ≠ o.patchIdx := fun o ho e => hnd.1 (by rw [e]; exact List.mem_map_of_mem (f := (·.patchIdx)) ho)
    refine ⟨ps', ?_, by rw [h2, List.length_set], ?_, ?_⟩
    · simp only [aclOwners, List.getElem?_eq_getElem hl, h1]
    · intro o ho p hp
      rcases List.mem_cons.1 ho with rfl | ho
      · rw [h4 _ (fun o' ho' e => hne o' ho' e.symm), List.getElem?_set_self hl]
        rw [List.getElem?_eq_getElem hl] at hp
        simp only [Option.some.injEq] at hp
        rw [hp]
      · exact h3 o ho p (by rw [List.getElem?_set_ne (hne o ho)]; exact hp)
    · intro i hi
      rw [h4 i (fun o ho => hi o (List.mem_cons_of_mem _ ho)), List.getElem?_set_ne (hi op List.mem_cons_self)]

/-- Specification: ownership. The data of each listed patch is on the rank the list says, and no rank holds anything else. -/
structure Owned {D : Type} (W : Nat) (ps : List Patch) (data : Nat → List (Nat × D)) : Prop where
  maps : ∀ r < W, MapOk (data r)
  ids : (ps.map (·.idPatch)).Nodup
  owner : ∀ p ∈ ps, p.nodeOwnerId < W ∧ ∃ d, mfind (data p.nodeOwnerId) p.idPatch = some d
  only : ∀ r < W, ∀ id d, mfind (data r) id = some d → ∃ p ∈ ps, p.idPatch = id ∧ p.nodeOwnerId = r

theorem owned_inj {ps : List Patch} (h : (ps.map (·.idPatch)).Nodup) {p q : Patch} (hp : p ∈ ps) (hq : q ∈ ps) (e : p.idPatch = q.idPatch) : p = q :=
  List.inj_on_of_nodup_map h hp hq e

/-- **C34, with the load balancer.** Balancing and applying the change list on all ranks ends with each patch on the owner chosen by the
balancer: the list and the data agree again, and every patch keeps its data. -/
theorem C34_balance_then_apply {D P : Type} (ser : D → Res P) (des : P → Res D) (R : F64Rnd) (S : SortImpl) (hilb : V3 Nat → Nat) (W : Nat) (hw : 0 < W) (hw2 : W < 2 ^ 31) (ps : List Patch) (order : List Nat)
    (data : Nat → List (Nat × D)) (hps : PatchListOk W ps) (ho : order.Perm (List.range ps.length)) (how : Owned W ps data)
    (hser : ∀ r < W, ∀ id d, mfind (data r) id = some d → ∃ p, ser d = .ok p ∧ des p = .ok d) :
    ∃ ops ps', makeChangeList R S hilb W order ps = .ok ops ∧ aclOwners ops ps = .ok ps' ∧
      (∃ own, OwnerTable hilb W ps own ∧ ps' = List.zipWith (fun p o => { p with nodeOwnerId := o }) ps own) ∧
      (∃ prog : Nat → NProg P, ∀ r < W, aclSends ser r (data r) ops = .ok (prog r).sends ∧ (prog r).recvs = aclRecvs r ops) ∧
      ∀ prog : Nat → NProg P, (∀ r < W, aclSends ser r (data r) ops = .ok (prog r).sends ∧ (prog r).recvs = aclRecvs r ops) →
      (∀ sf ord n s, NRun W prog sf ord n s → (s.Final W prog ∨ ∃ s', NStep W prog sf ord s s') ∧ n ≤ netTotal W prog) ∧
      ∀ sf ord n s, NRun W prog sf ord n s → s.Final W prog → ∃ data' : Nat → List (Nat × D),
        (∀ r < W, aclFinish des r (s.got r) ops (data r) = .ok (data' r)) ∧ Owned W ps' data' ∧
        ∀ p ∈ ps, ∀ p' ∈ ps', p.idPatch = p'.idPatch → mfind (data' p'.nodeOwnerId) p.idPatch = mfind (data p.nodeOwnerId) p.idPatch := by
  obtain ⟨ops, own, c1, c2, c3, c4, c5, c6⟩ := C33_change_list R S hilb W ps order hw hw2 hps ho
  have hidx : (ops.map (·.patchIdx)).Nodup := List.pairwise_map.2 (c5.imp (fun h => Nat.ne_of_lt h))
  have hop : ∀ op ∈ ops, ∃ p ∈ ps, ps[op.patchIdx]? = some p ∧ op.patchId = p.idPatch ∧ op.ownerOld = p.nodeOwnerId ∧
      own[op.patchIdx]? = some op.ownerNew ∧ op.ownerNew ≠ op.ownerOld := by
    intro op h
    obtain ⟨p, a, b⟩ := c3 op h
    exact ⟨p, List.mem_of_getElem? a, a, b⟩
  have hids : (ops.map (·.patchId)).Nodup := by
    refine List.pairwise_map.2 (c5.imp_of_mem (fun {a b} ha hb hab e => ?_))
    obtain ⟨p, p1, p2, p3, -⟩ := hop a ha
    obtain ⟨q, q1, q2, q3, -⟩ := hop b hb
    have : p = q := owned_inj how.ids p1 q1 (by rw [← p3, ← q3]; exact e)
    subst this
    have hnd : ps.Nodup := List.Nodup.of_map _ how.ids
    have := nodup_getElem?_inj hnd p2 q2
    omega
  have hA : AclOk ser W data ops := by
    refine ⟨fun op h => ?_, hids, c6, how.maps, fun op h => ?_, fun op h r hr hne => ?_⟩
    · obtain ⟨p, p1, p2, p3, p4, p5, p6⟩ := hop op h
      exact ⟨by rw [p4]; exact (how.owner p p1).1, c2.valid _ (List.mem_of_getElem? p5), p6.symm⟩
    · obtain ⟨p, p1, p2, p3, p4, p5, p6⟩ := hop op h
      obtain ⟨hlt, d, hd⟩ := how.owner p p1
      obtain ⟨m, hm, -⟩ := hser _ hlt _ d hd
      exact ⟨d, m, by rw [p3, p4]; exact hd, hm⟩
    · obtain ⟨p, p1, p2, p3, p4, p5, p6⟩ := hop op h
      cases hf : mfind (data r) op.patchId with
      | none => rfl
      | some d =>
        obtain ⟨q, q1, q2, q3⟩ := how.only r hr _ d hf
        have : q = p := owned_inj how.ids q1 p1 (by rw [q2, p3])
        subst this
        exact absurd (q3.symm.trans p4.symm) hne
  obtain ⟨g1, g0⟩ := C34_apply_change_list ser des W data ops (fun op h d p hd hp => by
    obtain ⟨q, q1, q2, q3, q4, -⟩ := hop op h
    rw [q3, q4] at hd
    obtain ⟨p', e1, e2⟩ := hser _ (how.owner q q1).1 _ d hd
    rw [hp, Res.ok.injEq] at e1
    rw [e1]; exact e2) hA
  obtain ⟨ps', o1, o2, o3, o4⟩ := aclOwners_spec ops ps
    (fun op h => by obtain ⟨p, _, p2, _⟩ := hop op h; exact (List.getElem?_eq_some_iff.1 p2).1) hidx
  have hps' : ps' = List.zipWith (fun p o => { p with nodeOwnerId := o }) ps own := by
    apply List.ext_getElem?
    intro i
    rw [List.getElem?_zipWith]
    by_cases hi : i < ps.length
    · have e1 : ps[i]? = some ps[i] := List.getElem?_eq_getElem hi
      have e2 : own[i]? = some (own[i]'(by rw [c2.len]; exact hi)) := List.getElem?_eq_getElem _
      rw [e1, e2]
      simp only
      by_cases hx : ∃ op ∈ ops, op.patchIdx = i
      · obtain ⟨op, hm, rfl⟩ := hx
        rw [o3 op hm _ e1]
        obtain ⟨p, p1, p2, p3, p4, p5, p6⟩ := hop op hm
        rw [e2] at p5
        simp only [Option.some.injEq] at p5
        rw [p5]
      · rw [o4 i (fun op hm e => hx ⟨op, hm, e⟩), e1]
        have : own[i]'(by rw [c2.len]; exact hi) = (ps[i]).nodeOwnerId := by
          by_contra hne
          exact hx (c4 i _ _ e1 e2 hne)
        rw [this]
    · rw [List.getElem?_eq_none (by omega), List.getElem?_eq_none (by omega)]
  refine ⟨ops, ps', c1, o1, ⟨own, c2, hps'⟩, g1, fun prog hprog => ?_⟩
  obtain ⟨g2, g3⟩ := g0 prog hprog
  refine ⟨g2, fun sf ord n s hrun hfin => ?_⟩
  have hd : ∀ r, ∃ m, r < W → (aclFinish des r (s.got r) ops (data r) = .ok m ∧ MapOk m ∧
        (∀ op ∈ ops, mfind m op.patchId = if r = op.ownerNew then mfind (data op.ownerOld) op.patchId else none) ∧
        ∀ id, (∀ op ∈ ops, op.patchId ≠ id) → mfind m id = mfind (data r) id) := by
    intro r
    by_cases hr : r < W
    · obtain ⟨m, hm⟩ := g3 sf ord n s hrun hfin r hr
      exact ⟨m, fun _ => hm⟩
    · exact ⟨[], fun h => absurd h hr⟩
  choose data' hdata' using hd
  -- the listed patches before and after, index by index
  have hcase : ∀ (i : Nat) (p' : Patch), ps'[i]? = some p' → ∃ p, ps[i]? = some p ∧ p'.idPatch = p.idPatch ∧ p'.nodeOwnerId < W ∧
      ((∃ op ∈ ops, op.patchIdx = i ∧ op.patchId = p.idPatch ∧ op.ownerOld = p.nodeOwnerId ∧ op.ownerNew = p'.nodeOwnerId) ∨
       (p' = p ∧ ∀ op ∈ ops, op.patchId ≠ p.idPatch)) := by
    intro i p' hi
    have hil : i < ps.length := by have := (List.getElem?_eq_some_iff.1 hi).1; omega
    have e1 : ps[i]? = some ps[i] := List.getElem?_eq_getElem hil
    refine ⟨ps[i], e1, ?_⟩
    by_cases hx : ∃ op ∈ ops, op.patchIdx = i
    · obtain ⟨op, hm, rfl⟩ := hx
      rw [o3 op hm _ e1] at hi
      simp only [Option.some.injEq] at hi
      obtain ⟨p, p1, p2, p3, p4, p5, p6⟩ := hop op hm
      rw [e1] at p2
      simp only [Option.some.injEq] at p2
      rw [← hi]
      exact ⟨rfl, c2.valid _ (List.mem_of_getElem? p5), Or.inl ⟨op, hm, rfl, by rw [p3, p2], by rw [p4, p2], rfl⟩⟩
    · rw [o4 i (fun op hm e => hx ⟨op, hm, e⟩), e1] at hi
      simp only [Option.some.injEq] at hi
      rw [← hi]
      refine ⟨rfl, (how.owner _ (List.getElem_mem hil)).1, Or.inr ⟨rfl, fun op hm e => ?_⟩⟩
      obtain ⟨p, p1, p2, p3, -⟩ := hop op hm
      have : p = ps[i] := owned_inj how.ids p1 (List.getElem_mem hil) (by rw [← p3]; exact e)
      subst this
      exact hx ⟨op, hm, nodup_getElem?_inj (List.Nodup.of_map _ how.ids) p2 e1⟩
  have hids' : ps'.map (·.idPatch) = ps.map (·.idPatch) := by
    apply List.ext_getElem?
    intro i
    rw [List.getElem?_map, List.getElem?_map]
    cases hq : ps'[i]? with
    | none =>
      have : ps.length ≤ i := by rw [← o2]; exact List.getElem?_eq_none_iff.1 hq
      rw [List.getElem?_eq_none this]
    | some p' =>
      obtain ⟨p, hp, e, -⟩ := hcase i p' hq
      rw [hp]
      simp [e]
  have hkeep : ∀ (i : Nat) (p' : Patch), ps'[i]? = some p' → ∀ p : Patch, ps[i]? = some p →
      mfind (data' p'.nodeOwnerId) p.idPatch = mfind (data p.nodeOwnerId) p.idPatch := by
    intro i p' hi p hp
    obtain ⟨q, hq, e, hlt, hor⟩ := hcase i p' hi
    rw [hp] at hq
    simp only [Option.some.injEq] at hq
    subst hq
    rcases hor with ⟨op, hm, _, e2, e3, e4⟩ | ⟨e2, e3⟩
    · have := (hdata' p'.nodeOwnerId hlt).2.2.1 op hm
      rw [if_pos e4.symm, e2, e3] at this
      exact this
    · rw [(hdata' p'.nodeOwnerId hlt).2.2.2 p.idPatch e3, e2]
  refine ⟨data', fun r hr => (hdata' r hr).1, ⟨fun r hr => (hdata' r hr).2.1, by rw [hids']; exact how.ids, fun p' hp' => ?_, fun r hr id d hd => ?_⟩, ?_⟩
  · obtain ⟨i, hi⟩ := List.mem_iff_getElem?.1 hp'
    obtain ⟨p, hp, e, hlt, -⟩ := hcase i p' hi
    refine ⟨hlt, ?_⟩
    rw [e, hkeep i p' hi p hp]
    exact (how.owner p (List.mem_of_getElem? hp)).2
  · by_cases hx : ∃ op ∈ ops, op.patchId = id
    · obtain ⟨op, hm, rfl⟩ := hx
      rw [(hdata' r hr).2.2.1 op hm] at hd
      split at hd
      · rename_i hrn
        obtain ⟨p, p1, p2, p3, p4, p5, p6⟩ := hop op hm
        exact ⟨_, List.mem_of_getElem? (o3 op hm p p2), p3.symm, hrn.symm⟩
      · simp at hd
    · rw [(hdata' r hr).2.2.2 id (fun op hm e => hx ⟨op, hm, e⟩)] at hd
      obtain ⟨p, p1, p2, p3⟩ := how.only r hr id d hd
      obtain ⟨i, hi⟩ := List.mem_iff_getElem?.1 p1
      have hil := (List.getElem?_eq_some_iff.1 hi).1
      have hi' : ps'[i]? = some (ps'[i]'(by omega)) := List.getElem?_eq_getElem _
      obtain ⟨q, hq, e, hlt, hor⟩ := hcase i _ hi'
      rw [hi] at hq
      simp only [Option.some.injEq] at hq
      subst hq
      refine ⟨_, List.mem_of_getElem? hi', e.trans p2, ?_⟩
      rcases hor with ⟨op, hm, _, e2, _⟩ | ⟨e2, _⟩
      · exact absurd ⟨op, hm, e2.trans p2⟩ hx
      · rw [e2]; exact p3
  · intro p hp p' hp' e
    obtain ⟨i, hi⟩ := List.mem_iff_getElem?.1 hp'
    obtain ⟨q, hq, e', -⟩ := hcase i p' hi
    have : p = q := owned_inj how.ids hp (List.mem_of_getElem? hq) (e.trans e')
    subst this
    exact hkeep i p' hi p hq

/-! Concrete case: two ranks swap a patch each while a third stays. -/
def aclEx : List ChangeOp := [⟨7, 0, 0, 1, 0⟩, ⟨9, 2, 1, 0, 0⟩]
def aclExData : Nat → List (Nat × String) := fun r => if r = 0 then [(7, "a"), (8, "b")] else if r = 1 then [(9, "c")] else []

example : AclOk (D := String) (P := String) Res.ok 2 aclExData aclEx := by
  refine ⟨by decide, by decide, by decide, ?_, ?_, ?_⟩
  · intro r hr
    rcases r with _ | _ | r
    · unfold MapOk aclExData; simp
    · unfold MapOk aclExData; simp
    · omega
  · intro op hop
    simp only [aclEx, List.mem_cons, List.not_mem_nil, or_false] at hop
    rcases hop with rfl | rfl
    · exact ⟨"a", "a", rfl, rfl⟩
    · exact ⟨"c", "c", rfl, rfl⟩
  · intro op hop r hr hne
    simp only [aclEx, List.mem_cons, List.not_mem_nil, or_false] at hop
    rcases hop with rfl | rfl <;> rcases r with _ | _ | r <;> first | rfl | omega | (exfalso; exact hne rfl)

end Shamrock
