import Verif.Proof.SchedPre
/-! The load balancing inside the scheduler step, and the end of the step. -/
namespace Shamrock

attribute [local irreducible] u64max getSplit

theorem bucket_perm : ∀ (W : Nat) (L : List Patch), (∀ p ∈ L, p.nodeOwnerId < W) →
    ((List.range W).flatMap fun r => L.filter fun p => p.nodeOwnerId == r).Perm L := by
  intro W
  induction W with
  | zero =>
    intro L h
    cases L with
    | nil => exact List.Perm.refl _
    | cons p L => exact absurd (h p List.mem_cons_self) (by omega)
  | succ W ih =>
    intro L h
    rw [List.range_succ, List.flatMap_append]
    have e1 : ((List.range W).flatMap fun r => L.filter fun p => p.nodeOwnerId == r) =
        (List.range W).flatMap fun r => (L.filter fun p => decide (p.nodeOwnerId < W)).filter fun p => p.nodeOwnerId == r := by
      apply List.flatMap_congr
      intro r hr
      rw [List.filter_filter]
      apply List.filter_congr
      intro p _
      have := List.mem_range.1 hr
      by_cases e : p.nodeOwnerId = r
      · simp [e, this]
      · simp [e]
    have e2 : ([W].flatMap fun r => L.filter fun p => p.nodeOwnerId == r) = L.filter fun p => !decide (p.nodeOwnerId < W) := by
      rw [List.flatMap_cons, List.flatMap_nil, List.append_nil]
      apply List.filter_congr
      intro p hp
      have := h p hp
      by_cases e : p.nodeOwnerId = W
      · simp [e]
      · have : p.nodeOwnerId < W := by omega
        simp [e, this]
    rw [e1, e2]
    refine ((ih _ (fun p hp => ?_)).append_right _).trans (List.filter_append_perm _ L)
    exact of_decide_eq_true (List.mem_filter.1 hp).2

/-- The local lists built from the global list are the patches that are not merged away. -/
theorem locals_perm {β : Type} (f : Patch → β) (hf : ∀ p k, f { p with packNodeIndex := k } = f p) (W : Nat) (g : List Patch) (h : ∀ p ∈ live g, p.nodeOwnerId < W) :
    ((buildGlobal W fun r => resetPack (buildLocal g r)).map f).Perm ((live g).map f) := by
  have e : (buildGlobal W fun r => resetPack (buildLocal g r)).map f = ((List.range W).flatMap fun r => (live g).filter fun p => p.nodeOwnerId == r).map f := by
    unfold buildGlobal
    rw [List.map_flatMap, List.map_flatMap]
    apply List.flatMap_congr
    intro r _
    unfold resetPack buildLocal live
    rw [List.map_map, List.filter_filter]
    apply List.map_congr_left
    intro p _
    exact hf p _
  rw [e]
  exact (bucket_perm W _ h).map f

theorem DInv.congrData {α : Type} {W : Nat} {lay : List Nat} {inBox : PatchCoord → List (List α) → Prop} {G : List Patch} {data data' : Nat → RankData α}
    (H : DInv W lay inBox G data) (h : ∀ r < W, data' r = data r) : DInv W lay inBox G data' := by
  refine ⟨⟨fun r hr => by rw [h r hr]; exact H.owned.maps r hr, H.owned.ids, fun p hp => ?_, fun r hr id d hd => ?_⟩, fun r hr id l hl => ?_, fun p hp l hl => ?_⟩
  · obtain ⟨h1, h2⟩ := H.owned.owner p hp
    rw [h _ h1]
    exact ⟨h1, h2⟩
  · rw [h r hr] at hd
    exact H.owned.only r hr id d hd
  · rw [h r hr] at hl
    exact H.good r hr id l hl
  · rw [h _ (H.owned.owner p hp).1] at hl
    exact H.place p hp l hl

theorem allObj_congr {α : Type} {W : Nat} {data data' : Nat → RankData α} (h : ∀ r < W, data' r = data r) : allObj W data' = allObj W data := by
  unfold allObj
  apply List.flatMap_congr
  intro r hr
  rw [h r (List.mem_range.1 hr)]

/-- The serialization is faithful on the layers made of objects of one patch. -/
def CodecOk {α P : Type} (ser : PLayer α → Res P) (des : P → Res (PLayer α)) (lay : List Nat) (W : Nat) (data : Nat → RankData α) : Prop :=
  ∀ l : PLayer α, l.Good lay → (∃ r < W, ∃ id l', mfind (data r) id = some l' ∧ l.objects.Subperm l'.objects) → ∃ p, ser l = .ok p ∧ des p = .ok l

/-- What holds after the load balancing. -/
structure BalOk {α F : Type} [LinearOrder F] (env : SchedEnv α F) (smin : V3 Nat) (W : Nat) (mrq : List Nat) (im : Nat → Nat) (s1 s2 : Sched α) : Prop where
  inv : MrgInv env smin W im s2
  ready : ∀ tid ∈ mrq, MrgReady s2 tid
  objs : (allObj W s2.data).Perm (allObj W s1.data)
  next : s2.tree.nextId = s1.tree.nextId
  loads : s2.global.map (·.loadValue) = s1.global.map (·.loadValue)
  live : live s2.global = s2.global
  fresh : s2.fresh = s1.fresh

theorem live_owners {g : List Patch} {W : Nat} (hW : W < 2 ^ 31) (h : ∀ p ∈ g, p.nodeOwnerId < W) : live g = g := by
  refine live_of (fun p hp => ?_)
  cases he : p.isErrMode with
  | false => rfl
  | true =>
    have := (isErr_iff p).1 he
    have := h p hp
    omega

/-- The load balancing: it can always be completed, and every completion keeps the invariants. -/
theorem lb_ok {α F P : Type} [LinearOrder F] {env : SchedEnv α F} {smin : V3 Nat} (R : F64Rnd) (S : SortImpl) (hilb : V3 Nat → Nat)
    (ser : PLayer α → Res P) (des : P → Res (PLayer α)) {W : Nat} (hW : 0 < W) (hW2 : W < 2 ^ 31) {s s1 : Sched α} {srq mrq : List Nat} {im : Nat → Nat}
    (H : PreOk env smin W s s1 srq mrq im) (order : List Nat) (ho : order.Perm (List.range s1.global.length)) (hser : CodecOk ser des env.lay W s.data) :
    ∃ ops ps', makeChangeList R S hilb W order s1.global = .ok ops ∧ aclOwners ops s1.global = .ok ps' ∧
      (∃ own, OwnerTable hilb W s1.global own ∧ ps' = List.zipWith (fun p o => { p with nodeOwnerId := o }) s1.global own) ∧
      (∃ prog : Nat → NProg P, ∀ r < W, aclSends ser r (s1.data r) ops = .ok (prog r).sends ∧ (prog r).recvs = aclRecvs r ops) ∧
      ∀ prog : Nat → NProg P, (∀ r < W, aclSends ser r (s1.data r) ops = .ok (prog r).sends ∧ (prog r).recvs = aclRecvs r ops) →
      (∀ sf ord n st, NRun W prog sf ord n st → (st.Final W prog ∨ ∃ st', NStep W prog sf ord st st') ∧ n ≤ netTotal W prog) ∧
      ∀ sf ord n st, NRun W prog sf ord n st → st.Final W prog → (∃ data' : Nat → RankData α, ∀ r < W, aclFinish des r (st.got r) ops (s1.data r) = .ok (data' r)) ∧
        ∀ data' : Nat → RankData α, (∀ r < W, aclFinish des r (st.got r) ops (s1.data r) = .ok (data' r)) →
          BalOk env smin W mrq im s1 ({ s1 with global := ps', data := data' } : Sched α) := by
  obtain ⟨ops, ps', c1, c2, ⟨own, c3, c4⟩, c5, c6⟩ := C34_balance_then_apply ser des R S hilb W hW hW2 s1.global order s1.data H.list ho H.inv.dinv.owned
    (fun r hr id d hd => by
      obtain ⟨id', l', e1, e2⟩ := H.finer r hr id d hd
      exact hser d (H.inv.dinv.good r hr id d hd) ⟨r, hr, id', l', e1, e2⟩)
  refine ⟨ops, ps', c1, c2, ⟨own, c3, c4⟩, c5, fun prog hprog => ?_⟩
  obtain ⟨g1, g2⟩ := c6 prog hprog
  refine ⟨g1, fun sf ord n st hrun hfin => ?_⟩
  obtain ⟨data0, d1, d2, d3⟩ := g2 sf ord n st hrun hfin
  refine ⟨⟨data0, d1⟩, fun data' hd' => ?_⟩
  have heq : ∀ r < W, data' r = data0 r := by
    intro r hr
    have := hd' r hr
    rw [d1 r hr, Res.ok.injEq] at this
    exact this.symm
  -- the lists position by position
  have hpos : ∀ (i : Nat) p, s1.global[i]? = some p → ∃ o, own[i]? = some o ∧ ps'[i]? = some { p with nodeOwnerId := o } := by
    intro i p hi
    have hlt := (List.getElem?_eq_some_iff.1 hi).1
    have hlt' : i < own.length := by rw [c3.len]; exact hlt
    refine ⟨own[i], List.getElem?_eq_getElem hlt', ?_⟩
    rw [c4, List.getElem?_zipWith, hi, List.getElem?_eq_getElem hlt']
  have hpos' : ∀ (i : Nat) p', ps'[i]? = some p' → ∃ p o, s1.global[i]? = some p ∧ own[i]? = some o ∧ p' = { p with nodeOwnerId := o } := by
    intro i p' hi
    rw [c4, List.getElem?_zipWith] at hi
    cases hp : s1.global[i]? with
    | none => rw [hp] at hi; simp at hi
    | some p =>
      obtain ⟨o, o1, -⟩ := hpos i p hp
      rw [hp, o1] at hi
      simp only [Option.some.injEq] at hi
      exact ⟨p, o, rfl, o1, hi.symm⟩
  have hlen : ps'.length = s1.global.length := by
    rw [c4, List.length_zipWith, c3.len]; exact Nat.min_self _
  have hmap : ∀ {β : Type} (f : Patch → β), (∀ (p : Patch) o, f { p with nodeOwnerId := o } = f p) → ps'.map f = s1.global.map f := by
    intro β f hf
    apply List.ext_getElem?
    intro i
    rw [List.getElem?_map, List.getElem?_map]
    cases hp : s1.global[i]? with
    | none =>
      have : ps'.length ≤ i := by rw [hlen]; exact List.getElem?_eq_none_iff.1 hp
      rw [List.getElem?_eq_none this]
    | some p =>
      obtain ⟨o, -, o2⟩ := hpos i p hp
      rw [o2]
      simp only [Option.map_some, hf]
  have hback : ∀ p' ∈ ps', ∃ p ∈ s1.global, p.idPatch = p'.idPatch ∧ p.coord = p'.coord := by
    intro p' hp'
    obtain ⟨i, hi⟩ := List.mem_iff_getElem?.1 hp'
    obtain ⟨p, o, p1, p2, rfl⟩ := hpos' i p' hi
    exact ⟨p, List.mem_of_getElem? p1, rfl, rfl⟩
  have hforth : ∀ p ∈ s1.global, ∃ p' ∈ ps', p'.idPatch = p.idPatch ∧ p'.coord = p.coord := by
    intro p hp
    obtain ⟨i, hi⟩ := List.mem_iff_getElem?.1 hp
    obtain ⟨o, -, o2⟩ := hpos i p hi
    exact ⟨_, List.mem_of_getElem? o2, rfl, rfl⟩
  have hown : ∀ p' ∈ ps', p'.nodeOwnerId < W := fun p' hp' => (d2.owner p' hp').1
  have hlive : live ps' = ps' := live_owners hW2 hown
  have D0 : DInv W env.lay (InPatch env.pos env.box) ps' data0 := by
    refine ⟨d2, fun r hr id l hl => ?_, fun p' hp' l hl => ?_⟩
    · obtain ⟨p', p1, p2, p3⟩ := d2.only r hr id l hl
      obtain ⟨p, q1, q2, -⟩ := hback p' p1
      have e := d3 p q1 p' p1 q2
      rw [p3, q2, p2, hl] at e
      exact H.inv.dinv.good _ (H.inv.dinv.owned.owner p q1).1 _ l e.symm
    · obtain ⟨p, q1, q2, q3⟩ := hback p' hp'
      have e := d3 p q1 p' hp' q2
      rw [q2, hl, ← q2] at e
      intro o ho
      rw [← q3]
      exact H.inv.dinv.place p q1 l e.symm o ho
  have hobjs : (allObj W data0).Perm (allObj W s1.data) := by
    refine (owned_objs d2).trans (List.Perm.trans ?_ (owned_objs H.inv.dinv.owned).symm)
    have e : ps'.map (patchObjs data0) = s1.global.map (patchObjs s1.data) := by
      apply List.ext_getElem?
      intro i
      rw [List.getElem?_map, List.getElem?_map]
      cases hp : s1.global[i]? with
      | none =>
        have : ps'.length ≤ i := by rw [hlen]; exact List.getElem?_eq_none_iff.1 hp
        rw [List.getElem?_eq_none this]; rfl
      | some p =>
        obtain ⟨o, -, o2⟩ := hpos i p hp
        have := d3 p (List.mem_of_getElem? hp) _ (List.mem_of_getElem? o2) rfl
        rw [o2]
        simp only [Option.map_some]
        unfold patchObjs
        rw [← this]
    rw [List.flatMap_def, List.flatMap_def, e]
  refine ⟨⟨?_, ?_, ?_, H.inv.next, ?_⟩, ?_, ?_, rfl, hmap _ (fun _ _ => rfl), hlive, rfl⟩
  · show TLInv smin s1.tree (live ps')
    rw [hlive]
    exact H.inv.tl.congr hforth (fun q hq => by
      obtain ⟨p, p1, p2, _⟩ := hback q hq
      exact ⟨p, p1, p2⟩)
  · show DInv W env.lay _ (live ps') data'
    rw [hlive]
    exact D0.congrData heq
  · intro p' hp'
    have hp' : p' ∈ ps' := by
      have h : p' ∈ live ps' := hp'
      rw [hlive] at h; exact h
    obtain ⟨p, p1, p2, _⟩ := hback p' hp'
    show p'.idPatch < s1.nextPid
    rw [← p2]
    exact H.inv.pid p p1
  · intro p' hp'
    have hp' : p' ∈ ps' := by
      have h : p' ∈ live ps' := hp'
      rw [hlive] at h; exact h
    obtain ⟨i, hi⟩ := List.mem_iff_getElem?.1 hp'
    obtain ⟨p, o, p1, p2, rfl⟩ := hpos' i p' hi
    show ps'[im p.idPatch]? = _
    rw [H.idx i p p1]
    exact hi
  · intro tid ht
    obtain ⟨n, p0, rest, n1, n2, n3, n4, n5⟩ := H.ready tid ht
    obtain ⟨i0, hi0⟩ := List.mem_iff_getElem?.1 (n4 p0 List.mem_cons_self)
    obtain ⟨o, o1, o2⟩ := hpos i0 p0 hi0
    have hi0lt := (List.getElem?_eq_some_iff.1 hi0).1
    have hkid : ∀ p ∈ p0 :: rest, ({ p with nodeOwnerId := o } : Patch) ∈ ps' := by
      intro p hp
      rcases List.mem_cons.1 hp with rfl | hp
      · exact List.mem_of_getElem? o2
      · obtain ⟨i, hi⟩ := List.mem_iff_getElem?.1 (n4 p (List.mem_cons_of_mem _ hp))
        obtain ⟨o', o1', o2'⟩ := hpos i p hi
        have hpk := n5 p hp
        rw [H.idx i0 p0 hi0] at hpk
        have hc := H.list.count
        have hum : u64max = 2 ^ 64 - 1 := by unfold u64max; rfl
        have hpk' := c3.packed i p hi (by rw [hpk]; omega)
        rw [hpk, o1, o1', Option.some.injEq] at hpk'
        rw [← hpk']
        exact List.mem_of_getElem? o2'
    refine ⟨n, (p0 :: rest).map (fun p => { p with nodeOwnerId := o }), o, n1, n2, ?_, ?_⟩
    · rw [List.forall₂_map_right_iff]
      exact n3
    · intro q hq
      obtain ⟨p, hp, rfl⟩ := List.mem_map.1 hq
      refine ⟨?_, rfl⟩
      show _ ∈ live ps'
      rw [hlive]
      exact hkid p hp
  · show (allObj W data').Perm _
    rw [allObj_congr heq]
    exact hobjs

/-- The end of the step. -/
theorem step_post {α F : Type} [LinearOrder F] {env : SchedEnv α F} {smin : V3 Nat} (he : EnvOk env smin) {W : Nat} (hW : W < 2 ^ 31) {e : StepEnv}
    (hio : ∀ r l, (e.iterO r l).Perm l)
    {im : Nat → Nat} (hbox : ∀ (c : PatchCoord) (ch : PatchCoord) (o : List (List α)), CoordOk smin c → Splittable c → ch ∈ getSplit c → InPatch env.pos env.box ch o → InPatch env.pos env.box c o)
    (srq mrq : List Nat) (s2 : Sched α) (H : MrgInv env smin W im s2) (hn : mrq.Nodup) (hr : ∀ tid ∈ mrq, MrgReady s2 tid)
    (hsz : ∀ v ∈ env.lay, (allObj W s2.data).length * v < 2 ^ 32) :
    ∃ s', schedPost env.lay W e im srq mrq s2 = .ok s' ∧ SchedOk env smin W s' ∧ (allObj W s'.data).Perm (allObj W s2.data) ∧ s'.tree.nextId = s2.tree.nextId ∧
      (((live s2.global).map (·.loadValue)).sum < 2 ^ 64 → ((buildGlobal W s'.locals).map (·.loadValue)).sum = ((live s2.global).map (·.loadValue)).sum) ∧
      (s'.fresh = true ↔ s2.fresh = true ∧ srq = [] ∧ mrq = []) ∧
      (∀ r < W, ∀ id, id ∈ s'.owned r ↔ id ∈ (s'.locals r).map (·.idPatch)) := by
  obtain ⟨s3, a1, a2, a3, a4, a5, a6, a7, a8⟩ := mergePatches_ok he hW hbox mrq s2 H hn hr hsz
  have hown : ∀ p ∈ live s3.global, p.nodeOwnerId < W := fun p hp => (a2.dinv.owned.owner p hp).1
  have hkey := (locals_perm patchKey (fun _ _ => rfl) W s3.global hown).symm
  have hids : ∀ r, (resetPack (buildLocal s3.global r)).map (·.idPatch) = (buildLocal s3.global r).map (·.idPatch) := by
    intro r
    unfold resetPack
    rw [List.map_map]; rfl
  refine ⟨_, by unfold schedPost; rw [a1]; rfl, ?_, ?_, ?_, ?_, ?_, ?_⟩
  · refine ⟨a2.tl.congrKey hkey, a2.dinv.congrKey hkey, ?_, a2.next, ?_, ?_, ?_⟩
    · intro p hp
      obtain ⟨q, q1, q2⟩ := List.mem_map.1 (hkey.mem_iff.2 (List.mem_map_of_mem (f := patchKey) hp))
      unfold patchKey at q2
      rw [Prod.mk.injEq] at q2
      show p.idPatch < s3.nextPid
      rw [← q2.1]
      exact a2.pid q q1
    · intro r hr p hp
      obtain ⟨q, q1, rfl⟩ := List.mem_map.1 (show p ∈ resetPack (buildLocal s3.global r) from hp)
      have := (List.mem_filter.1 (show q ∈ List.filter _ _ from q1)).2
      rw [Bool.and_eq_true, beq_iff_eq] at this
      exact this.1
    · intro p hp
      obtain ⟨r, _, hp⟩ := List.mem_flatMap.1 hp
      obtain ⟨q, q1, rfl⟩ := List.mem_map.1 (show p ∈ resetPack (buildLocal s3.global r) from hp)
      rfl
    · intro r hr
      refine ⟨(hio r _).nodup_iff.2 ?_, fun id hid => ?_⟩
      · have h1 : (buildLocal s3.global r).Sublist (live s3.global) := by
          have e : buildLocal s3.global r = (live s3.global).filter fun p => p.nodeOwnerId == r := by
            unfold buildLocal live
            rw [List.filter_filter]
          rw [e]
          exact List.filter_sublist
        exact (h1.map _).nodup a2.dinv.owned.ids
      · show id ∈ (resetPack (buildLocal s3.global r)).map (·.idPatch)
        rw [hids]
        exact (hio r _).mem_iff.1 hid
  · exact a4
  · exact a3
  · intro h
    rw [← a5 h]
    exact (locals_perm (·.loadValue) (fun _ _ => rfl) W s3.global hown).sum_nat
  · show (s3.fresh && srq.isEmpty && mrq.isEmpty) = true ↔ _
    rw [a8, Bool.and_eq_true, Bool.and_eq_true, List.isEmpty_iff, List.isEmpty_iff, and_assoc]
  · intro r hr id
    show id ∈ e.iterO r ((buildLocal s3.global r).map (·.idPatch)) ↔ id ∈ (resetPack (buildLocal s3.global r)).map (·.idPatch)
    rw [hids]
    exact (hio r _).mem_iff

/-- Without load balancing and without merges. -/
theorem noLB_ok {α F : Type} [LinearOrder F] {env : SchedEnv α F} {smin : V3 Nat} {W : Nat} (hW2 : W < 2 ^ 31) {s s1 : Sched α} {srq : List Nat} {im : Nat → Nat}
    (H : PreOk env smin W s s1 srq [] im) : BalOk env smin W [] im s1 s1 := by
  have hlive : live s1.global = s1.global := live_owners hW2 (fun p hp => (H.inv.dinv.owned.owner p hp).1)
  refine ⟨⟨by rw [hlive]; exact H.inv.tl, by rw [hlive]; exact H.inv.dinv, by rw [hlive]; exact H.inv.pid, H.inv.next, ?_⟩, fun t ht => absurd ht List.not_mem_nil, List.Perm.refl _, rfl, rfl, hlive, rfl⟩
  rw [hlive]
  intro p hp
  obtain ⟨i, hi⟩ := List.mem_iff_getElem?.1 hp
  rw [H.idx i p hi]
  exact hi

end Shamrock
