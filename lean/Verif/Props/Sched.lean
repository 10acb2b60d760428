import Verif.Proof.SchedInit
import Verif.Proof.DumpLoad
/-! # C37: the scheduler step -/
namespace Shamrock

attribute [local irreducible] u64max getSplit

/-- **Specification of a correct scheduler state** on `W` ranks. -/
structure SchedSpec {α F : Type} [LinearOrder F] (env : SchedEnv α F) (W : Nat) (s : Sched α) : Prop where
  /-- the patch tree is a consistent forest -/
  forest : ForestOk s.tree
  /-- the patches listed on the ranks are those linked to the leaves of the tree, with the same boxes -/
  list : ListMatchesLeaves (buildGlobal W s.locals) s.tree
  /-- one leaf per patch -/
  inj : ∀ x y n m, s.tree.tree x = some n → s.tree.tree y = some m → n.isLeaf = true → m.isLeaf = true → n.linked = m.linked → x = y
  /-- each rank lists its own patches -/
  loc : ∀ r < W, ∀ p ∈ s.locals r, p.nodeOwnerId = r
  /-- the data of a patch is on its owner, has the layout of the scheduler, and its objects are in the box of the patch -/
  data : ∀ r < W, ∀ p ∈ s.locals r, ∃ l, mfind (s.data r) p.idPatch = some l ∧ l.Good env.lay ∧ ∀ o ∈ l.objects, InPatch env.pos env.box p.coord o
  /-- and nothing else is on any rank -/
  only : ∀ r < W, MapOk (s.data r) ∧ ∀ id l, mfind (s.data r) id = some l → ∃ p ∈ s.locals r, p.idPatch = id

theorem SchedOk.spec {α F : Type} [LinearOrder F] {env : SchedEnv α F} {smin : V3 Nat} {W : Nat} (hW : W < 2 ^ 31) {s : Sched α} (H : SchedOk env smin W s) : SchedSpec env W s := by
  have hmem : ∀ p, p ∈ buildGlobal W s.locals → p ∈ s.locals p.nodeOwnerId ∧ p.nodeOwnerId < W := by
    intro p hp
    obtain ⟨r, hr, hp⟩ := List.mem_flatMap.1 hp
    have := H.loc r (List.mem_range.1 hr) p hp
    rw [this]
    exact ⟨hp, List.mem_range.1 hr⟩
  refine ⟨H.tl.tinv.forest, ⟨H.dinv.owned.ids, ?_, ?_, ?_⟩, H.tl.inj, H.loc, ?_, ?_⟩
  · intro p hp
    cases he : p.isErrMode with
    | false => rfl
    | true =>
      have := (isErr_iff p).1 he
      have := (hmem p hp).2
      omega
  · intro l k hl hk
    obtain ⟨n, n1, n2⟩ := (H.tl.tinv.leaf l).1 hl
    rw [hk, Option.some.injEq] at n1
    subst n1
    exact H.tl.leafP l k hk n2
  · intro p hp
    obtain ⟨x, n, n1, n2, n3⟩ := H.tl.patchL p hp
    obtain ⟨q, q1, q2, q3⟩ := H.tl.leafP x n n1 n2
    have : q = p := owned_inj H.dinv.owned.ids q1 hp (q2.trans n3)
    subst this
    exact ⟨x, n, (H.tl.tinv.leaf x).2 ⟨n, n1, n2⟩, n1, q2, q3⟩
  · intro r hr p hp
    have hp' : p ∈ buildGlobal W s.locals := List.mem_flatMap.2 ⟨r, List.mem_range.2 hr, hp⟩
    obtain ⟨_, l, hl⟩ := H.dinv.owned.owner p hp'
    have ho := H.loc r hr p hp
    refine ⟨l, by rw [← ho]; exact hl, H.dinv.good r hr _ l (by rw [← ho]; exact hl), H.dinv.place p hp' l hl⟩
  · intro r hr
    refine ⟨H.dinv.owned.maps r hr, fun id l hl => ?_⟩
    obtain ⟨p, p1, p2, p3⟩ := H.dinv.owned.only r hr id l hl
    refine ⟨p, ?_, p2⟩
    have := (hmem p p1).1
    rw [p3] at this
    exact this

/-- `s'` on `W'` ranks is a restart from a dump of the state `s` of `W` ranks: the dump was written, its writes reached the file in some order, the file was loaded on `W'` ranks,
and the model rebuilt `owned_patch_id` (/repo/src/shammodels/sph/include/shammodels/sph/Model.hpp:964-971). The state was dumped after a `scheduler_step(false, ·)` or at the start
(`DumpReady`). -/
def Restarts {α : Type} (W W' : Nat) (s s' : Sched α) : Prop :=
  ∃ (ser : PLayer α → Res (List Byte)) (des : List LField → List Byte → Res (PLayer α)) (js : JVal → List Byte) (parse : List Byte → Option JVal) (user : Nat → List Byte)
    (o : TreeOrd) (m : DumpMeta) (ws : List (List FWrite)) (f : FileC) (L : Loaded α) (iterO : Nat → List Nat → List Nat),
    (∀ v, parse (js v) = some v) ∧ DumpRep o m s ∧ LayerCodec ser (des m.layout) W s.data ∧ dumpBytes ser W s.data < 2 ^ 64 ∧ DumpReady W s ∧
    writeDump ser js W user o m s = .ok ws ∧ DumpFile ws f ∧ loadDump des parse W' f = .ok L ∧ (∀ r l, (iterO r l).Perm l) ∧ s' = refreshOwned iterO L.sched

/-- **Histories.** A scheduler is created with root patches; then, in any order, the load values are updated with any function, the data of the patches is
changed by other parts of the code (the patches keep data of the right layout with objects in their boxes, see C41 and C42), scheduler steps are made,
with any network execution, and the simulation is restarted from a dump, on any number of ranks. -/
inductive SchedHist {α F P : Type} [LinearOrder F] (env : SchedEnv α F) (b : LBEnv α P) (smin : V3 Nat) : Nat → Sched α → Prop where
  | start {W : Nat} (cs : List PatchCoord) (s : Sched α) (hc : ∀ c ∈ cs, CoordOk smin c) (hn : cs.length ≤ 2 ^ 32) (h : addRoots env.lay cs Sched.empty = .ok s) : SchedHist env b smin W s
  | startSync {W : Nat} (cs : List PatchCoord) (s : Sched α) (iterO : Nat → List Nat → List Nat) (hi : ∀ r l, (iterO r l).Perm l) (hc : ∀ c ∈ cs, CoordOk smin c) (hn : cs.length ≤ 2 ^ 32)
      (h : addRoots env.lay cs Sched.empty = .ok s) : SchedHist env b smin W (refreshOwned iterO s)
  | loads {W : Nat} (s s' : Sched α) (f : Nat → Patch → Nat) (h : SchedHist env b smin W s) (hu : updateLoads W f s = .ok s') : SchedHist env b smin W s'
  | data {W : Nat} (s : Sched α) (data' : Nat → RankData α) (h : SchedHist env b smin W s) (hs : SchedSpec env W { s with data := data' }) : SchedHist env b smin W { s with data := data' }
  | step {W : Nat} (s s' : Sched α) (e : StepEnv) (doSM doLB : Bool) (h : SchedHist env b smin W s) (hs : StepOk env W e s) (hb : doSM = true → doLB = true)
      (hc : CodecOk b.ser b.des env.lay W s.data) (ht : SchedStep env b W e doSM doLB s s') : SchedHist env b smin W s'
  | restart {W W' : Nat} (s s' : Sched α) (h : SchedHist env b smin W s) (hW : 0 < W) (hW2 : W < 2 ^ 31) (hr : Restarts W W' s s') : SchedHist env b smin W' s'

theorem in_parent_box {α F : Type} [LinearOrder F] {env : SchedEnv α F} {smin : V3 Nat} (he : EnvOk env smin) (c : PatchCoord) (ch : PatchCoord) (o : List (List α))
    (hc : CoordOk smin c) (hs : Splittable c) (hch : ch ∈ getSplit c) (h : InPatch env.pos env.box ch o) : InPatch env.pos env.box c o := by
  obtain ⟨A, fact, dmin, hf, hbox⟩ := he.box
  obtain ⟨v, h1, h2⟩ := h
  refine ⟨v, h1, ?_⟩
  rw [hbox] at h2 ⊢
  exact (C47_children_tile_domain A fact dmin smin hf c hc.1 hs hc.2.1 v).2 ch hch h2

/-- One step from a correct state. -/
theorem sched_step_ok {α F P : Type} [LinearOrder F] {env : SchedEnv α F} {b : LBEnv α P} {smin : V3 Nat} (he : EnvOk env smin) {W : Nat} (hW : 0 < W) (hW2 : W < 2 ^ 31)
    {s : Sched α} {e : StepEnv} (H : SchedOk env smin W s) (h : StepOk env W e s) (hc : CodecOk b.ser b.des env.lay W s.data)
    {doSM doLB : Bool} (hb : doSM = true → doLB = true) :
    ∃ s1 srq mrq im, schedPre env W e doSM s = .ok (s1, srq, mrq, im) ∧
      (doLB = true → ∃ ops ps', makeChangeList b.rnd b.sort b.hilb W (e.packOrder s1.global.length) s1.global = .ok ops ∧ aclOwners ops s1.global = .ok ps' ∧
        (∃ prog : Nat → NProg P, ∀ r < W, aclSends b.ser r (s1.data r) ops = .ok (prog r).sends ∧ (prog r).recvs = aclRecvs r ops) ∧
        ∀ prog : Nat → NProg P, (∀ r < W, aclSends b.ser r (s1.data r) ops = .ok (prog r).sends ∧ (prog r).recvs = aclRecvs r ops) →
          (∀ sf ord n st, NRun W prog sf ord n st → (st.Final W prog ∨ ∃ st', NStep W prog sf ord st st') ∧ n ≤ netTotal W prog) ∧
          ∀ sf ord n st, NRun W prog sf ord n st → st.Final W prog → ∃ data' : Nat → RankData α, ∀ r < W, aclFinish b.des r (st.got r) ops (s1.data r) = .ok (data' r)) ∧
      ∀ s2, ((doLB = true ∧ SchedLB b W e s1 s2) ∨ (doLB = false ∧ s2 = s1)) →
        ∃ s', schedPost env.lay W e im srq mrq s2 = .ok s' ∧ SchedOk env smin W s' ∧ (allObj W s'.data).Perm (allObj W s.data) ∧
          ((buildGlobal W s'.locals).map (·.loadValue)).sum ≤ ((buildGlobal W s.locals).map (·.loadValue)).sum ∧
          (∀ r < W, ∀ id, id ∈ s'.owned r ↔ id ∈ (s'.locals r).map (·.idPatch)) ∧ (doSM = false → s'.fresh = true) := by
  obtain ⟨s1, srq, mrq, im, a1, a2, a3⟩ := step_pre he H h doSM
  obtain ⟨ops, ps', c1, c2, c3, c4, c5⟩ := lb_ok b.rnd b.sort b.hilb b.ser b.des hW hW2 a2 (e.packOrder s1.global.length) (h.packOrder _) hc
  refine ⟨s1, srq, mrq, im, a1, fun _ => ⟨ops, ps', c1, c2, c4, fun prog hp => ⟨(c5 prog hp).1, fun sf ord n st hr hf => ((c5 prog hp).2 sf ord n st hr hf).1⟩⟩, fun s2 hs2 => ?_⟩
  have hB : BalOk env smin W mrq im s1 s2 := by
    rcases hs2 with ⟨_, ops', ps2, prog, sf, ord, n, st, data', e1, e2, e3, e4, e5, e6, rfl⟩ | ⟨hl, rfl⟩
    · rw [c1, Res.ok.injEq] at e1
      subst e1
      rw [c2, Res.ok.injEq] at e2
      subst e2
      exact ((c5 prog e3).2 sf ord n st e4 e5).2 data' e6
    · have hm : mrq = [] := (a3 (by
        cases doSM with
        | false => rfl
        | true => rw [hb rfl] at hl; cases hl)).2
      subst hm
      exact noLB_ok hW2 a2
  obtain ⟨s', b1, b2, b3, b4, b5, b6, b7⟩ := step_post he hW2 h.iterO (in_parent_box he) srq mrq s2 hB.inv a2.nodup hB.ready (by
    intro v hv
    rw [(hB.objs.trans a2.objs).length_eq]
    exact h.size v hv)
  refine ⟨s', b1, b2, b3.trans (hB.objs.trans a2.objs), ?_, b7, fun hd => ?_⟩
  · have e1 : ((live s2.global).map (·.loadValue)).sum = (s1.global.map (·.loadValue)).sum := by rw [hB.live, hB.loads]
    rw [b5 (by rw [e1]; exact a2.list.loads), e1]
    exact a2.sum
  · exact b6.2 ⟨hB.fresh.trans a2.fresh, a3 hd⟩

theorem addRoots_locals {α : Type} (lay : List Nat) : ∀ (cs : List PatchCoord) (s s' : Sched α), addRoots lay cs s = .ok s' → ∀ r, s'.locals r = resetPack (buildLocal s'.global r) := by
  intro cs
  induction cs with
  | nil => intro s s' h r; rw [addRoots, Res.ok.injEq] at h; rw [← h]
  | cons c cs ih =>
    intro s s' h r
    rw [addRoots] at h
    cases ha : addRoot lay s c with
    | ok s1 => rw [ha] at h; exact ih s1 s' h r
    | throws => rw [ha] at h; cases h
    | ub => rw [ha] at h; cases h

theorem updateLoads_global {α : Type} {W : Nat} {f : Nat → Patch → Nat} {s s' : Sched α} (h : updateLoads W f s = .ok s') : s'.global = s.global := by
  unfold updateLoads at h
  cases ha : allRanks (fun r l => updLoads (f r) (gidx l) (s.owned r) l) W s.locals with
  | ok l => rw [ha] at h; simp only [Res.bind, Res.ok.injEq] at h; rw [← h]
  | throws => rw [ha] at h; cases h
  | ub => rw [ha] at h; cases h

theorem schedPost_locals {α : Type} {lay : List Nat} {W : Nat} {e : StepEnv} {im : Nat → Nat} {srq mrq : List Nat} {s s' : Sched α} (h : schedPost lay W e im srq mrq s = .ok s') (r : Nat) :
    s'.locals r = resetPack (buildLocal s'.global r) := by
  unfold schedPost at h
  cases ha : mergePatches lay W im mrq s with
  | ok s1 => rw [ha] at h; simp only [Res.bind, Res.ok.injEq] at h; rw [← h]
  | throws => rw [ha] at h; cases h
  | ub => rw [ha] at h; cases h

theorem SchedHist.okSync {α F P : Type} [LinearOrder F] {env : SchedEnv α F} {b : LBEnv α P} {smin : V3 Nat} (he : EnvOk env smin) {W : Nat} (hW : 0 < W) (hW2 : W < 2 ^ 31)
    {s : Sched α} (h : SchedHist env b smin W s) : SchedOk env smin W s ∧ GSync W s := by
  induction h with
  | @start W cs s hc hn h =>
    obtain ⟨s', e, _, e2, _⟩ := addRoots_ok he hW hW2 cs Sched.empty (rootInv_empty env smin W) hc (by show 0 + _ ≤ _; omega)
    rw [h, Res.ok.injEq] at e
    refine ⟨by rw [e]; exact e2, fun r hr => by rw [addRoots_locals env.lay cs _ _ h r, resetPack_key]⟩
  | @startSync W cs s iterO hi hc hn h =>
    obtain ⟨s', e, e1, e2, _, e3, _⟩ := addRoots_ok he hW hW2 cs Sched.empty (rootInv_empty env smin W) hc (by show 0 + _ ≤ _; omega)
    rw [h, Res.ok.injEq] at e
    subst e
    have hown : ∀ p ∈ live s.global, p.nodeOwnerId < W := fun p hp => by rw [(e1.pos p (mem_live.1 hp).1).1]; exact hW
    have hloc : ∀ r < W, (buildLocal s.global r).map patchKey = (s.locals r).map patchKey := by
      intro r hr
      by_cases hr0 : r = 0
      · subst hr0
        rw [e3]
        have : buildLocal s.global 0 = s.global := by
          unfold buildLocal
          rw [List.filter_eq_self]
          intro p hp
          have h1 := (e1.pos p hp).1
          have : p.isErrMode = false := by
            cases he : p.isErrMode with
            | false => rfl
            | true => have := (isErr_iff p).1 he; omega
          rw [h1, this]; rfl
        rw [this]
      · have h1 : buildLocal s.global r = [] := by
          unfold buildLocal
          rw [List.filter_eq_nil_iff]
          intro p hp
          rw [(e1.pos p hp).1]
          have : (0 == r) = false := by simpa using fun h : 0 = r => hr0 h.symm
          rw [this]; simp
        have h2 : s.locals r = [] := by
          cases hl : s.locals r with
          | nil => rfl
          | cons p l =>
            have hp : p ∈ s.locals r := by rw [hl]; exact List.mem_cons_self
            have ho := e2.loc r hr p hp
            have hpg : p ∈ buildGlobal W s.locals := List.mem_flatMap.2 ⟨r, List.mem_range.2 hr, hp⟩
            obtain ⟨-, hb⟩ := ‹s.fresh = false ∧ buildGlobal W s.locals = s.global›
            rw [hb] at hpg
            exact absurd (ho.symm.trans (e1.pos p hpg).1) hr0
        rw [h1, h2]
    refine ⟨e2.congr rfl rfl rfl hloc ?_ ?_, fun r _ => rfl⟩
    · intro r hr p hp
      exact (e1.pos p (List.mem_filter.1 (show p ∈ List.filter _ _ from hp)).1).2.1
    · intro r hr
      refine ⟨(hi r _).nodup_iff.2 ?_, fun id hid => (hi r _).mem_iff.1 hid⟩
      have := buildGlobal_nodup e2.dinv.owned.ids hr
      have e : ∀ G : List Patch, G.map (·.idPatch) = (G.map patchKey).map (·.1) := fun G => by rw [List.map_map]; rfl
      rw [e, hloc r hr, ← e]
      exact this
  | @loads W s s' f _ hu ih =>
    obtain ⟨ih, ig⟩ := ih hW hW2
    obtain ⟨s2, e1, e2, _, _, _, _, e7⟩ := updateLoads_ok ih f
    rw [hu, Res.ok.injEq] at e1
    subst e1
    refine ⟨e2, fun r hr => ?_⟩
    rw [updateLoads_global hu, ig r hr, e7 r hr, List.map_map]
    apply List.map_congr_left
    intro p _
    show patchKey p = patchKey (if _ then _ else _)
    split <;> rfl
  | @data W s data' _ hs ih =>
    obtain ⟨ih, ig⟩ := ih hW hW2
    have hmem : ∀ p ∈ buildGlobal W s.locals, p ∈ s.locals p.nodeOwnerId ∧ p.nodeOwnerId < W := by
      intro p hp
      obtain ⟨r, hr, hp⟩ := List.mem_flatMap.1 hp
      have := ih.loc r (List.mem_range.1 hr) p hp
      rw [this]
      exact ⟨hp, List.mem_range.1 hr⟩
    have hdata : ∀ p ∈ buildGlobal W s.locals, ∃ l, mfind (data' p.nodeOwnerId) p.idPatch = some l ∧ l.Good env.lay ∧ ∀ o ∈ l.objects, InPatch env.pos env.box p.coord o :=
      fun p hp => hs.data _ (hmem p hp).2 p (hmem p hp).1
    refine ⟨⟨ih.tl, ⟨⟨fun r hr => (hs.only r hr).1, ih.dinv.owned.ids, ?_, ?_⟩, ?_, ?_⟩, ih.pid, ih.next, ih.loc, ih.packs, ih.own⟩, ig⟩
    · intro p hp
      obtain ⟨l, h1, -⟩ := hdata p hp
      exact ⟨(hmem p hp).2, l, h1⟩
    · intro r hr id d hd
      obtain ⟨p, p1, p2⟩ := (hs.only r hr).2 id d hd
      exact ⟨p, List.mem_flatMap.2 ⟨r, List.mem_range.2 hr, p1⟩, p2, ih.loc r hr p p1⟩
    · intro r hr id l hl
      obtain ⟨p, p1, p2⟩ := (hs.only r hr).2 id l hl
      obtain ⟨l', h1, h2, -⟩ := hs.data r hr p p1
      have hl' : mfind (data' r) id = some l := hl
      have h1' : mfind (data' r) p.idPatch = some l' := h1
      rw [p2, hl', Option.some.injEq] at h1'
      rw [h1']; exact h2
    · intro p hp l hl
      obtain ⟨l', h1, -, h3⟩ := hdata p hp
      have hl' : mfind (data' p.nodeOwnerId) p.idPatch = some l := hl
      rw [h1, Option.some.injEq] at hl'
      rw [← hl']; exact h3
  | @step W s s' e doSM doLB _ hs hb hc ht ih =>
    obtain ⟨ih, ig⟩ := ih hW hW2
    obtain ⟨s1, srq, mrq, im, s2, t1, t2, t3⟩ := ht
    obtain ⟨s1', srq', mrq', im', a1, -, a3⟩ := sched_step_ok he hW hW2 ih hs hc hb
    rw [t1, Res.ok.injEq, Prod.mk.injEq, Prod.mk.injEq, Prod.mk.injEq] at a1
    obtain ⟨rfl, rfl, rfl, rfl⟩ := a1
    obtain ⟨s'', b1, b2, -⟩ := a3 s2 t2
    rw [t3, Res.ok.injEq] at b1
    refine ⟨by rw [b1]; exact b2, fun r hr => ?_⟩
    rw [schedPost_locals t3 r, resetPack_key]
  | @restart W0 W s s' h hWa hWb hr ih =>
    obtain ⟨ih, ig⟩ := ih hWa hWb
    obtain ⟨ser, des, js, parse, user, o, m, ws, f, L, iterO, q1, q2, q3, q4, q5, q6, q7, q8, q9, rfl⟩ := hr
    have hown : Owned _ s.global s.data := (ih.dinv.congrKey (ready_perm hWb q5 ig).symm).owned
    obtain ⟨L', l1, l2, l3, l4, l5, l6, l7, l8, l9, l10, l11⟩ := loadDump_ok q1 hWb q2 hown q3 q4 q6 q7 hW hW2
    rw [q8, Res.ok.injEq] at l1
    subst l1
    exact ⟨restart_ok hWb hW hW2 ih ig q5 l4 l5 l7 l10 l11 iterO q9, fun r _ => rfl⟩

theorem SchedHist.ok {α F P : Type} [LinearOrder F] {env : SchedEnv α F} {b : LBEnv α P} {smin : V3 Nat} (he : EnvOk env smin) {W : Nat} (hW : 0 < W) (hW2 : W < 2 ^ 31)
    {s : Sched α} (h : SchedHist env b smin W s) : SchedOk env smin W s := (h.okSync he hW hW2).1

/-- **C37.** After every history of load updates, data changes and scheduler steps, on any number of ranks, with any network executions: the patches listed are exactly those
linked to the leaves of the tree, with the same boxes; the data of each patch is on exactly the rank the list says, and its objects are in its box. -/
theorem C37_history {α F P : Type} [LinearOrder F] (env : SchedEnv α F) (b : LBEnv α P) (smin : V3 Nat) (he : EnvOk env smin) (W : Nat) (hW : 0 < W) (hW2 : W < 2 ^ 31)
    (s : Sched α) (h : SchedHist env b smin W s) : SchedSpec env W s := (h.ok he hW hW2).spec hW2

/-- **C37, one step: conservation.** After any history, every scheduler step that ends conserves the multiset of the objects over all ranks, ends in a correct state, does not
increase the sum of the load values, and makes `owned_patch_id` the set of the local patches on each rank. -/
theorem C37_step_conserves {α F P : Type} [LinearOrder F] (env : SchedEnv α F) (b : LBEnv α P) (smin : V3 Nat) (he : EnvOk env smin) (W : Nat) (hW : 0 < W) (hW2 : W < 2 ^ 31)
    (s s' : Sched α) (h : SchedHist env b smin W s) (e : StepEnv) (doSM doLB : Bool) (hs : StepOk env W e s) (hb : doSM = true → doLB = true)
    (hc : CodecOk b.ser b.des env.lay W s.data) (ht : SchedStep env b W e doSM doLB s s') :
    (allObj W s'.data).Perm (allObj W s.data) ∧ SchedSpec env W s' ∧
    ((buildGlobal W s'.locals).map (·.loadValue)).sum ≤ ((buildGlobal W s.locals).map (·.loadValue)).sum ∧
    (∀ r < W, ∀ id, id ∈ s'.owned r ↔ id ∈ (s'.locals r).map (·.idPatch)) ∧ (doSM = false → s'.fresh = true) := by
  obtain ⟨s1, srq, mrq, im, s2, t1, t2, t3⟩ := ht
  obtain ⟨s1', srq', mrq', im', a1, -, a3⟩ := sched_step_ok he hW hW2 (h.ok he hW hW2) hs hc hb
  rw [t1, Res.ok.injEq, Prod.mk.injEq, Prod.mk.injEq, Prod.mk.injEq] at a1
  obtain ⟨rfl, rfl, rfl, rfl⟩ := a1
  obtain ⟨s'', b1, b2, b3, b4, b5⟩ := a3 s2 t2
  rw [t3, Res.ok.injEq] at b1
  subst b1
  exact ⟨b3, b2.spec hW2, b4, b5⟩

/-- **C37, one step: no failure.** After any history, a scheduler step never throws and never blocks: the splits succeed, the messages of the load balancing are
prepared, no network execution gets stuck and all are bounded, every end of the exchange is accepted by all ranks, and the merges succeed. -/
theorem C37_step_no_failure {α F P : Type} [LinearOrder F] (env : SchedEnv α F) (b : LBEnv α P) (smin : V3 Nat) (he : EnvOk env smin) (W : Nat) (hW : 0 < W) (hW2 : W < 2 ^ 31)
    (s : Sched α) (h : SchedHist env b smin W s) (e : StepEnv) (doSM doLB : Bool) (hs : StepOk env W e s) (hb : doSM = true → doLB = true)
    (hc : CodecOk b.ser b.des env.lay W s.data) :
    ∃ s1 srq mrq im, schedPre env W e doSM s = .ok (s1, srq, mrq, im) ∧
      (doLB = true → ∃ ops ps', makeChangeList b.rnd b.sort b.hilb W (e.packOrder s1.global.length) s1.global = .ok ops ∧ aclOwners ops s1.global = .ok ps' ∧
        (∃ prog : Nat → NProg P, ∀ r < W, aclSends b.ser r (s1.data r) ops = .ok (prog r).sends ∧ (prog r).recvs = aclRecvs r ops) ∧
        ∀ prog : Nat → NProg P, (∀ r < W, aclSends b.ser r (s1.data r) ops = .ok (prog r).sends ∧ (prog r).recvs = aclRecvs r ops) →
          (∀ sf ord n st, NRun W prog sf ord n st → (st.Final W prog ∨ ∃ st', NStep W prog sf ord st st') ∧ n ≤ netTotal W prog) ∧
          ∀ sf ord n st, NRun W prog sf ord n st → st.Final W prog → ∃ data' : Nat → RankData α, ∀ r < W, aclFinish b.des r (st.got r) ops (s1.data r) = .ok (data' r)) ∧
      ∀ s2, ((doLB = true ∧ SchedLB b W e s1 s2) ∨ (doLB = false ∧ s2 = s1)) → ∃ s', schedPost env.lay W e im srq mrq s2 = .ok s' := by
  obtain ⟨s1, srq, mrq, im, a1, a2, a3⟩ := sched_step_ok he hW hW2 (h.ok he hW hW2) hs hc hb
  refine ⟨s1, srq, mrq, im, a1, a2, fun s2 hs2 => ?_⟩
  obtain ⟨s', b1, -⟩ := a3 s2 hs2
  exact ⟨s', b1⟩

/-- A bounded system that never gets stuck has a complete run. -/
theorem net_final_exists {P : Type} (W : Nat) (prog : Nat → NProg P) (sf ord : Bool)
    (h : ∀ n st, NRun W prog sf ord n st → (st.Final W prog ∨ ∃ st', NStep W prog sf ord st st') ∧ n ≤ netTotal W prog) :
    ∃ n st, NRun W prog sf ord n st ∧ st.Final W prog := by
  by_contra hno
  have key : ∀ k, ∃ st, NRun W prog sf ord k st := by
    intro k
    induction k with
    | zero => exact ⟨_, NRun.init⟩
    | succ k ih =>
      obtain ⟨st, hst⟩ := ih
      rcases (h k st hst).1 with hf | ⟨st', hs⟩
      · exact absurd ⟨k, st, hst, hf⟩ hno
      · exact ⟨st', NRun.step hst hs⟩
  obtain ⟨st, hst⟩ := key (netTotal W prog + 1)
  have := (h _ st hst).2
  omega

/-- After any history, a step can be completed. -/
theorem C37_step_exists {α F P : Type} [LinearOrder F] (env : SchedEnv α F) (b : LBEnv α P) (smin : V3 Nat) (he : EnvOk env smin) (W : Nat) (hW : 0 < W) (hW2 : W < 2 ^ 31)
    (s : Sched α) (h : SchedHist env b smin W s) (e : StepEnv) (doSM doLB : Bool) (hs : StepOk env W e s) (hb : doSM = true → doLB = true)
    (hc : CodecOk b.ser b.des env.lay W s.data) : ∃ s', SchedStep env b W e doSM doLB s s' := by
  obtain ⟨s1, srq, mrq, im, a1, a2, a3⟩ := C37_step_no_failure env b smin he W hW hW2 s h e doSM doLB hs hb hc
  cases hl : doLB with
  | false =>
    obtain ⟨s', hs'⟩ := a3 s1 (Or.inr ⟨hl, rfl⟩)
    exact ⟨s', s1, srq, mrq, im, s1, a1, Or.inr ⟨rfl, rfl⟩, hs'⟩
  | true =>
    obtain ⟨ops, ps', c1, c2, ⟨prog, c3⟩, c4⟩ := a2 hl
    obtain ⟨c5, c6⟩ := c4 prog c3
    obtain ⟨n, st, hr, hf⟩ := net_final_exists W prog true true (fun n st hr => c5 true true n st hr)
    obtain ⟨data', hd⟩ := c6 true true n st hr hf
    have hlb : SchedLB b W e s1 { s1 with global := ps', data := data' } := ⟨ops, ps', prog, true, true, n, st, data', c1, c2, c3, hr, hf, hd, rfl⟩
    obtain ⟨s', hs'⟩ := a3 _ (Or.inl ⟨hl, hlb⟩)
    exact ⟨s', s1, srq, mrq, im, _, a1, Or.inl ⟨rfl, hlb⟩, hs'⟩

/-- **C37, load values.** After any history, updating the load values never fails, gives exactly the patches of `owned_patch_id` the value of the function, and changes nothing else. -/
theorem C37_update_loads {α F P : Type} [LinearOrder F] (env : SchedEnv α F) (b : LBEnv α P) (smin : V3 Nat) (he : EnvOk env smin) (W : Nat) (hW : 0 < W) (hW2 : W < 2 ^ 31)
    (s : Sched α) (h : SchedHist env b smin W s) (f : Nat → Patch → Nat) :
    ∃ s', updateLoads W f s = .ok s' ∧ SchedSpec env W s' ∧ s'.fresh = true ∧ s'.tree = s.tree ∧ s'.data = s.data ∧
      ∀ r < W, s'.locals r = (s.locals r).map (fun p => if p.idPatch ∈ s.owned r then { p with loadValue := f r p } else p) := by
  obtain ⟨s', a1, a2, a3, a4, a5, _, a7⟩ := updateLoads_ok (h.ok he hW hW2) f
  exact ⟨s', a1, a2.spec hW2, a3, a4, a5, a7⟩

end Shamrock
