import Verif.Props.BalLoad
/-! # C42: `push_patch_data` from the state of the scheduler to the end of the balancing loop -/
namespace Shamrock

attribute [local irreducible] u64max getSplit

/-- The rank that the patch list names as owner of a patch (`get_patch_rank_owner`). -/
def listOwner (G : List Patch) (id : Nat) : Nat := match G.find? (fun p => p.idPatch == id) with | some p => p.nodeOwnerId | none => 0

/-- **Specification of the data of a rank after the reattribution of the objects `objs`:** the patches are those from before, their layers have the layout of the scheduler, and each
holds exactly the objects of `objs` whose position is in its box. -/
def PushResult {α F : Type} [LinearOrder F] (env : SchedEnv α F) (W : Nat) (s : Sched α) (objs : List (List (List α))) (r : Nat) (d : RankData α) : Prop :=
  d.map (·.1) = (s.data r).map (·.1) ∧ ∀ kv ∈ d, kv.2.Good env.lay ∧ ∀ p ∈ buildGlobal W s.locals, p.idPatch = kv.1 →
    (∀ o ∈ kv.2.objects, InPatch env.pos env.box p.coord o) ∧
    ∃ keep : List (List α) → Bool, kv.2.objects.Perm (objs.filter keep) ∧ ∀ o ∈ objs, keep o = true ↔ InPatch env.pos env.box p.coord o

theorem listOwner_eq {G : List Patch} (hn : (G.map (·.idPatch)).Nodup) {p : Patch} (hp : p ∈ G) : listOwner G p.idPatch = p.nodeOwnerId := by
  unfold listOwner
  cases hf : G.find? (fun q => q.idPatch == p.idPatch) with
  | none => exact absurd (List.find?_eq_none.1 hf p hp) (by simp)
  | some q =>
    have h1 := List.mem_of_find?_eq_some hf
    have h2 := List.find?_some hf
    simp only [beq_iff_eq] at h2
    rw [owned_inj hn h1 hp h2]

theorem range_map_get {β : Type} (W : Nat) (f : Nat → β) {r : Nat} {x : β} (h : ((List.range W).map f)[r]? = some x) : r < W ∧ x = f r := by
  rw [List.getElem?_map, Option.map_eq_some_iff] at h
  obtain ⟨y, h1, h2⟩ := h
  have hlt := (List.getElem?_eq_some_iff.1 h1).1
  rw [List.length_range] at hlt
  rw [List.getElem?_range hlt, Option.some.injEq] at h1
  exact ⟨hlt, by rw [← h2, h1]⟩

theorem range_get_map {β : Type} (W : Nat) (f : Nat → β) {r : Nat} (h : r < W) : ((List.range W).map f)[r]? = some (f r) := by
  rw [List.getElem?_map, List.getElem?_range h]; rfl

theorem allObjects_range {α : Type} (W : Nat) (data : Nat → RankData α) : allObjects ((List.range W).map data) = allObj W data := by
  unfold allObjects allObj
  rw [List.flatMap_map]

/-- The data of a correct scheduler state, as the distributed data of the exchange. -/
theorem sched_world {α F : Type} [LinearOrder F] {env : SchedEnv α F} {smin : V3 Nat} {W : Nat} {s : Sched α} (H : SchedOk env smin W s)
    (hb : ∀ p ∈ buildGlobal W s.locals, p.idPatch < u64max) :
    PatchWorld (listOwner (buildGlobal W s.locals)) env.lay ((List.range W).map s.data) := by
  have hm : ∀ d ∈ (List.range W).map s.data, ∃ r < W, d = s.data r := by
    intro d hd
    obtain ⟨r, hr, rfl⟩ := List.mem_map.1 hd
    exact ⟨r, List.mem_range.1 hr, rfl⟩
  have hf : ∀ r < W, ∀ kv ∈ s.data r, mfind (s.data r) kv.1 = some kv.2 := fun r hr kv hkv => mfind_of_mem (H.dinv.owned.maps r hr) hkv
  refine ⟨?_, ?_, ?_, ?_⟩
  · intro d hd
    obtain ⟨r, hr, rfl⟩ := hm d hd
    exact H.dinv.owned.maps r hr
  · intro d hd kv hkv
    obtain ⟨r, hr, rfl⟩ := hm d hd
    exact H.dinv.good r hr _ _ (hf r hr kv hkv)
  · intro r d hd kv hkv
    obtain ⟨hr, rfl⟩ := range_map_get W s.data hd
    obtain ⟨p, p1, p2, p3⟩ := H.dinv.owned.only r hr _ _ (hf r hr kv hkv)
    rw [← p2, listOwner_eq H.dinv.owned.ids p1, p3]
  · intro d hd kv hkv
    obtain ⟨r, hr, rfl⟩ := hm d hd
    obtain ⟨p, p1, p2, p3⟩ := H.dinv.owned.only r hr _ _ (hf r hr kv hkv)
    rw [← p2]; exact hb p p1

/-- The box of exactly one patch of the list contains an object that is in some root box. -/
theorem unique_patch {α F : Type} [LinearOrder F] {env : SchedEnv α F} {smin : V3 Nat} (he : EnvOk env smin) {W : Nat} (hW2 : W < 2 ^ 31) {s : Sched α} (H : SchedOk env smin W s)
    (hdj : RootsDisjoint s.tree) (hri : RootsInRange smin s.tree) (rs : List Nat) (hr : Enumerates rs s.tree.roots) (hnd : rs.Nodup) (o : List (List α))
    (hin : ∃ x n, s.tree.roots x = true ∧ s.tree.tree x = some n ∧ InPatch env.pos env.box n.coord o) :
    ∃ p ∈ buildGlobal W s.locals, InPatch env.pos env.box p.coord o ∧ ∀ q ∈ buildGlobal W s.locals, InPatch env.pos env.box q.coord o → q = p := by
  obtain ⟨A, fact, dmin, hf, hbox⟩ := he.box
  obtain ⟨x, n, x1, x2, v, x3, x4⟩ := hin
  have hs : SplitsOk s.tree := fun id m hm hl => ⟨H.tl.splits id m hm hl, (H.tl.coords id m hm).notFull⟩
  have hL := (H.spec hW2).list
  rw [hbox] at x4
  obtain ⟨_, _, l, k, -, l1, l2, l3, l4, -⟩ := owner_inv A fact dmin smin hf s.tree H.tl.tinv H.tl.lev hs hdj hri rs hr hnd v ⟨x, n, x1, x2, x4⟩
  obtain ⟨p, p1, p2, p3⟩ := hL.2.2.1 l k l1 l2
  refine ⟨p, p1, ⟨v, x3, by rw [hbox, p3]; exact l3⟩, fun q hq hqi => ?_⟩
  obtain ⟨w, w1, w2⟩ := hqi
  rw [x3, Option.some.injEq] at w1
  subst w1
  obtain ⟨l', k', m1, m2, m3, m4⟩ := hL.2.2.2 q hq
  rw [hbox, m4] at w2
  have := l4 l' k' m1 m2 w2
  subst this
  rw [l2, Option.some.injEq] at m2
  subst m2
  exact owned_inj hL.1 hq p1 (m3.trans p2.symm)

/-- Data as specified on all ranks: nothing is lost, and the state is correct. -/
theorem pushed_state {α F P : Type} [LinearOrder F] {env : SchedEnv α F} (b : LBEnv α P) {smin : V3 Nat} (he : EnvOk env smin) {W : Nat} (hW : 0 < W) (hW2 : W < 2 ^ 31) {s : Sched α}
    (h : SchedHist env b smin W s) (hdj : RootsDisjoint s.tree) (hri : RootsInRange smin s.tree) (rs : List Nat) (hr : Enumerates rs s.tree.roots) (hnd : rs.Nodup)
    (hb : ∀ p ∈ buildGlobal W s.locals, p.idPatch < u64max) (objs : List (List (List α)))
    (hin : ∀ o ∈ objs, ∃ x n, s.tree.roots x = true ∧ s.tree.tree x = some n ∧ InPatch env.pos env.box n.coord o)
    (data2 : Nat → RankData α) (hd : ∀ r < W, PushResult env W s objs r (data2 r)) :
    (allObj W data2).Perm objs ∧ SchedHist env b smin W { s with data := data2 } := by
  have H := h.ok he hW hW2
  have hS := H.spec hW2
  have hmap : ∀ r < W, MapOk (data2 r) := by
    intro r hr'
    have h1 := H.dinv.owned.maps r hr'
    have e : ∀ m : RankData α, MapOk m ↔ (m.map (·.1)).Pairwise (fun a b : Nat => a < b) := fun m => by rw [List.pairwise_map]; rfl
    rw [e] at h1 ⊢
    rw [(hd r hr').1]
    exact h1
  have hkey : ∀ r < W, ∀ id, id ∈ (data2 r).map (·.1) ↔ id ∈ (s.data r).map (·.1) := fun r hr' id => by rw [(hd r hr').1]
  have honly : ∀ r < W, ∀ id ∈ (s.data r).map (·.1), ∃ p ∈ s.locals r, p.idPatch = id := by
    intro r hr' id hid
    obtain ⟨kv, k1, k2⟩ := List.mem_map.1 hid
    subst k2
    exact (hS.only r hr').2 kv.1 kv.2 (mfind_of_mem (H.dinv.owned.maps r hr') k1)
  have hloc : ∀ r < W, ∀ p ∈ s.locals r, p ∈ buildGlobal W s.locals := fun r hr' p hp => List.mem_flatMap.2 ⟨r, List.mem_range.2 hr', hp⟩
  constructor
  · have hex : ∀ o, ∃ q, o ∈ objs → ∃ p ∈ buildGlobal W s.locals, InPatch env.pos env.box p.coord o ∧ (∀ q ∈ buildGlobal W s.locals, InPatch env.pos env.box q.coord o → q = p) ∧ p.idPatch = q := by
      intro o
      by_cases ho : o ∈ objs
      · obtain ⟨p, p1, p2, p3⟩ := unique_patch he hW2 H hdj hri rs hr hnd o (hin o ho)
        exact ⟨p.idPatch, fun _ => ⟨p, p1, p2, p3, rfl⟩⟩
      · exact ⟨0, fun h => absurd h ho⟩
    choose dest hdest using hex
    -- the objects as one layer map on one rank
    have hperm : ∀ r < W, ∀ kv ∈ data2 r, kv.2.objects.Perm (objs.filter fun o => dest o == kv.1) := by
      intro r hr' kv hkv
      obtain ⟨p, p1, p2⟩ := honly r hr' kv.1 ((hkey r hr' _).1 (List.mem_map_of_mem (f := (·.1)) hkv))
      obtain ⟨-, keep, k1, k2⟩ := ((hd r hr').2 kv hkv).2 p (hloc r hr' p p1) p2
      have e : objs.filter keep = objs.filter fun o => dest o == kv.1 := by
        apply List.filter_congr
        intro o ho
        obtain ⟨q, q1, q2, q3, q4⟩ := hdest o ho
        rw [Bool.eq_iff_iff, k2 o ho, beq_iff_eq]
        constructor
        · intro hi
          rw [← q4, ← q3 p (hloc r hr' p p1) hi, p2]
        · intro hi
          have : p = q := owned_inj H.dinv.owned.ids (hloc r hr' p p1) q1 (by rw [p2, q4, hi])
          rw [this]; exact q2
      rw [← e]; exact k1
    have hk0 : ∀ o ∈ objs, dest o ∈ (((List.range W).map data2).flatten).map (·.1) := by
      intro o ho
      obtain ⟨p, p1, p2, p3, p4⟩ := hdest o ho
      obtain ⟨hlt, d, hdd⟩ := H.dinv.owned.owner p p1
      have : p.idPatch ∈ (data2 p.nodeOwnerId).map (·.1) := (hkey _ hlt _).2 (List.mem_map.2 ⟨(p.idPatch, d), mfind_mem' _ _ _ hdd, rfl⟩)
      obtain ⟨kv, k1, k2⟩ := List.mem_map.1 this
      exact List.mem_map.2 ⟨kv, List.mem_flatten.2 ⟨_, List.mem_map.2 ⟨_, List.mem_range.2 hlt, rfl⟩, k1⟩, by rw [k2, p4]⟩
    have hn0 : ((((List.range W).map data2).flatten).map (·.1)).Nodup := by
      have e : (((List.range W).map data2).flatten).map (·.1) = (((List.range W).map s.data).flatten).map (·.1) := by
        rw [List.map_flatten, List.map_flatten, List.map_map, List.map_map]
        congr 1
        apply List.map_congr_left
        intro r hr'
        exact (hd r (List.mem_range.1 hr')).1
      rw [e]
      exact world_nodup (sched_world H hb)
    have hp0 : ∀ kv ∈ ((List.range W).map data2).flatten, kv.2.objects.Perm (objs.filter fun o => dest o == kv.1) := by
      intro kv hkv
      obtain ⟨d, h1, h2⟩ := List.mem_flatten.1 hkv
      obtain ⟨r, hr', rfl⟩ := List.mem_map.1 h1
      exact hperm r (List.mem_range.1 hr') kv h2
    have hall : allObj W data2 = ((List.range W).map data2).flatten.flatMap fun kv => kv.2.objects := by
      rw [← allObjects_range]
      unfold allObjects
      rw [flatMap_of_flatten]
    rw [hall]
    generalize ((List.range W).map data2).flatten = Q at hk0 hn0 hp0
    clear hdest hperm hall hd hin hmap hkey
    refine (perm_flatMap_left _ (fun kv : Nat × PLayer α => objs.filter fun o => dest o == kv.1) Q hp0).trans ?_
    clear hp0
    induction Q generalizing objs with
    | nil =>
      cases objs with
      | nil => exact .refl _
      | cons o L => exact absurd (hk0 o List.mem_cons_self) (by simp)
    | cons kv Q ih =>
      rw [List.map_cons, List.nodup_cons] at hn0
      rw [List.flatMap_cons]
      have h1 := ih (objs.filter fun o => !(dest o == kv.1)) (by
        intro o ho
        obtain ⟨a, c⟩ := List.mem_filter.1 ho
        rcases List.mem_cons.1 (hk0 o a) with h | h
        · simp [h] at c
        · exact h) hn0.2
      have h2 : (Q.flatMap fun kv' : Nat × PLayer α => (objs.filter fun o => !(dest o == kv.1)).filter fun o => dest o == kv'.1) = Q.flatMap fun kv' => objs.filter fun o => dest o == kv'.1 := by
        apply List.flatMap_congr
        intro kv' hkv'
        rw [List.filter_filter]
        apply List.filter_congr
        intro o _
        have hne : kv'.1 ≠ kv.1 := fun hc => hn0.1 (hc ▸ List.mem_map_of_mem (f := (·.1)) hkv')
        by_cases h : dest o = kv'.1
        · simp [h, hne]
        · simp [h]
      rw [h2] at h1
      exact (h1.append_left _).trans (List.filter_append_perm (fun o => dest o == kv.1) objs)
  · refine SchedHist.data s data2 h ⟨hS.forest, hS.list, hS.inj, hS.loc, ?_, ?_⟩
    · intro r hr' p hp
      obtain ⟨l, l1, -⟩ := hS.data r hr' p hp
      have hk : p.idPatch ∈ (data2 r).map (·.1) := (hkey r hr' _).2 (List.mem_map.2 ⟨(p.idPatch, l), mfind_mem' _ _ _ l1, rfl⟩)
      obtain ⟨kv, k1, k2⟩ := List.mem_map.1 hk
      obtain ⟨g1, g2⟩ := (hd r hr').2 kv k1
      refine ⟨kv.2, ?_, g1, (g2 p (hloc r hr' p hp) k2.symm).1⟩
      show mfind (data2 r) p.idPatch = _
      rw [← k2]
      exact mfind_of_mem (hmap r hr') k1
    · intro r hr'
      refine ⟨hmap r hr', fun id l hl => ?_⟩
      have hl' : mfind (data2 r) id = some l := hl
      exact honly r hr' id ((hkey r hr' _).1 (List.mem_map.2 ⟨(id, l), mfind_mem' _ _ _ hl', rfl⟩))

/-- **C42, end to end.** `push_patch_data` from any state of a scheduler, on any number of ranks, when every rank that pushes objects owns a patch, pushes fewer than the threshold, and
the pushed objects are in the root boxes. With `objs` the objects from before and the pushed ones: the insertion succeeds on all ranks, the serial tree is built, the point location and
the extraction succeed on all ranks, no execution of the exchange blocks, all end, and on every rank the received data is inserted, passes the locality check, and is the one specified
(`PushResult`); and from all such results the balancing loop starts in a correct state with exactly the objects `objs`, it ends, and every end of it is a correct state with exactly
the objects `objs`. -/
theorem C42_push_balance_partial {α F P : Type} [LinearOrder F] (env : SchedEnv α F) (b : LBEnv α P) (smin : V3 Nat) (he : EnvOk env smin) (W : Nat) (hW : 0 < W) (hW2 : W < 2 ^ 31)
    (s : Sched α) (h : SchedHist env b smin W s) (hy : Synced W s) (hdj : RootsDisjoint s.tree) (hri : RootsInRange smin s.tree)
    (rs : List Nat) (hr : Enumerates rs s.tree.roots) (hnd : rs.Nodup) (hpos : env.lay[0]? = some 1)
    (ins : List (PLayer α)) (hlen : ins.length = W) (thr : Nat) (hi : ∀ l ∈ ins, l.Good env.lay ∧ l.objects.length < thr)
    (hex : ∀ (r : Nat) l, ins[r]? = some l → s.locals r ≠ [] ∨ l.objects = [])
    (hin : ∀ o ∈ ins.flatMap PLayer.objects, ∃ x n, s.tree.roots x = true ∧ s.tree.tree x = some n ∧ InPatch env.pos env.box n.coord o)
    (objs : List (List (List α))) (hobjs : objs = allObj W s.data ++ ins.flatMap PLayer.objects) (hl : BalLimits env b smin objs)
    (hid : s.tree.nextId + 30 * (8 * (objs.length / (env.critSplit + 1))) ≤ 2 ^ 32)
    (garbage : Nat → α) (order : Nat → Nat → Nat → Nat → Nat → List Nat) (ho : ∀ r c q k, GoodOrder (order r c q k))
    (perm : Nat → Nat → List (Nat × List Nat) → List (Nat × List Nat)) (hperm : ∀ r c g, (perm r c g).Perm g)
    (mx dev lim : Nat) (buf : Bool) (hlim : 0 < lim) (hmx : mx < 2 ^ 31) (h8 : 8 ≤ mx) :
    (∃ (data1 : Nat → RankData α) (t : SSt F) (ids : List Nat) (nid : Nat → List (Nat × List Nat)) (d1 : Nat → RankData α) (ex : Nat → List ((Nat × Nat) × PLayer α)),
      (∀ (r : Nat) l, ins[r]? = some l → pushInsert thr l (s.locals r) (s.data r) = .ok (data1 r)) ∧
      serBuild env.box s.tree rs = .ok (t, ids) ∧
      (∀ r < W, computeNewPid (fun p => patchOwner t ids p) env.pos 0 (data1 r) = .ok (nid r) ∧
        extractAll garbage (order r) (perm r) env.lay (nid r) (data1 r) [] = .ok (d1 r, ex r)) ∧
      ∀ (ser : PLayer α → List Byte) (deser : List Byte → PLayer α), (∀ r < W, ∀ e ∈ ex r, e.2.Good env.lay → (∀ o ∈ e.2.objects, o ∈ objs) → deser (ser e.2) = e.2) →
        FitsComm (listOwner (buildGlobal W s.locals)) mx dev ser ((List.range W).map ex) →
        CommDelivers (listOwner (buildGlobal W s.locals)) mx dev lim buf (((List.range W).map ex).map fun l => (splitSend (listOwner (buildGlobal W s.locals)) ser l).2) fun r recv =>
          ∃ d2, insertRecv (joinRecv deser recv (splitSend (listOwner (buildGlobal W s.locals)) ser (ex r)).1) (d1 r) = .ok d2 ∧
            checkLocality env.box env.pos (buildGlobal W s.locals) d2 = .ok () ∧ PushResult env W s objs r d2) ∧
    ∀ data2 : Nat → RankData α, (∀ r < W, PushResult env W s objs r (data2 r)) →
      (allObj W data2).Perm objs ∧ SchedHist env b smin W { s with data := data2 } ∧
      (∃ s', BalanceLoad env b W countLoad { s with data := data2 } s') ∧
      ∀ s', BalanceLoad env b W countLoad { s with data := data2 } s' → (allObj W s'.data).Perm objs ∧ SchedSpec env W s' ∧ Synced W s' ∧ SchedHist env b smin W s' := by
  have H := h.ok he hW hW2
  have hS := H.spec hW2
  have hb : ∀ p ∈ buildGlobal W s.locals, p.idPatch < u64max := by
    intro p hp
    have h1 := H.pid p hp
    have h2 := H.next
    have h3 := H.tl.tinv.bound
    have := u64max_big
    omega
  obtain ⟨A, fact, dmin, hf, hbox⟩ := he.box
  have hs : SplitsOk s.tree := fun id m hm hl => ⟨H.tl.splits id m hm hl, (H.tl.coords id m hm).notFull⟩
  have hall : ∀ o ∈ objs, ∃ x n, s.tree.roots x = true ∧ s.tree.tree x = some n ∧ InPatch env.pos env.box n.coord o := by
    intro o hoo
    rw [hobjs] at hoo
    rcases List.mem_append.1 hoo with hoo | hoo
    · obtain ⟨r, hr', hoo⟩ := List.mem_flatMap.1 hoo
      have hr' := List.mem_range.1 hr'
      obtain ⟨kv, k1, k2⟩ := List.mem_flatMap.1 hoo
      have hm := mfind_of_mem (H.dinv.owned.maps r hr') k1
      obtain ⟨p, p1, p2⟩ := (hS.only r hr').2 kv.1 kv.2 hm
      obtain ⟨l, l1, -, l3⟩ := hS.data r hr' p p1
      rw [p2, hm, Option.some.injEq] at l1
      subst l1
      have hpi := l3 o k2
      obtain ⟨x, n, n1, n2, n3⟩ := H.tl.patchL p (List.mem_flatMap.2 ⟨r, List.mem_range.2 hr', p1⟩)
      obtain ⟨q, q1, q2, q3⟩ := H.tl.leafP x n n1 n2
      have : q = p := owned_inj H.dinv.owned.ids q1 (List.mem_flatMap.2 ⟨r, List.mem_range.2 hr', p1⟩) (q2.trans n3)
      rw [← this, q3] at hpi
      obtain ⟨v, v1, v2⟩ := hpi
      obtain ⟨y, y1, y2⟩ := underRoot H.tl.tinv x x n (Nat.le_refl _) n1
      obtain ⟨k, k3, k4⟩ := y2.in_ H.tl.tinv (tiles_domain A fact dmin smin hf H.tl.tinv hs hri v) n n1 (by rw [hbox] at v2; exact v2)
      exact ⟨y, k, y1, k3, v, v1, by rw [hbox]; exact k4⟩
    · exact hin o hoo
  refine ⟨?_, fun data2 hd => ?_⟩
  · have hrl : ∀ {r : Nat} {l : PLayer α}, ins[r]? = some l → r < W := fun {r l} hh => by rw [← hlen]; exact (List.getElem?_eq_some_iff.1 hh).1
    obtain ⟨world', t, ids, nid, d1, ex, w1, w2, w3, w4, w5⟩ := push_inv A fact dmin smin hf s.tree H.tl.tinv H.tl.lev hs hdj hri rs hr hnd (listOwner (buildGlobal W s.locals)) env.lay env.pos
      hpos ((List.range W).map s.data) (sched_world H hb) (buildGlobal W s.locals) hS.list
      (by
        intro p hp
        obtain ⟨hlt, d, hd⟩ := H.dinv.owned.owner p hp
        exact ⟨_, List.mem_map.2 ⟨_, List.mem_range.2 hlt, rfl⟩, List.mem_map.2 ⟨(p.idPatch, d), mfind_mem' _ _ _ hd, rfl⟩⟩)
      (by
        intro d hd kv hkv
        obtain ⟨r, hr', rfl⟩ := List.mem_map.1 hd
        have hr' := List.mem_range.1 hr'
        obtain ⟨p, p1, p2, -⟩ := H.dinv.owned.only r hr' kv.1 kv.2 (mfind_of_mem (H.dinv.owned.maps r hr') hkv)
        exact ⟨p, p1, p2⟩)
      ins ((List.range W).map s.locals) (by rw [List.length_map, List.length_range, hlen]) (by rw [List.length_map, List.length_map]) thr hi
      (by
        intro r d loc hd hloc
        obtain ⟨hr', rfl⟩ := range_map_get W s.data hd
        obtain ⟨-, rfl⟩ := range_map_get W s.locals hloc
        intro p hp _
        obtain ⟨l, l1, -⟩ := hS.data r hr' p hp
        exact List.mem_map.2 ⟨(p.idPatch, l), mfind_mem' _ _ _ l1, rfl⟩)
      (by
        intro r l loc hl' hloc
        obtain ⟨hr', rfl⟩ := range_map_get W s.locals hloc
        rcases hex r l hl' with h1 | h1
        · obtain ⟨p, hp⟩ := List.exists_mem_of_ne_nil _ h1
          exact Or.inl ⟨p, hp, hS.list.2.1 p (List.mem_flatMap.2 ⟨r, List.mem_range.2 hr', hp⟩)⟩
        · exact Or.inr h1)
      (by
        intro v hv
        have := hl.size v hv
        rw [hobjs, List.length_append] at this
        rw [allObjects_range]
        exact this)
      (by
        intro o hoo
        rw [allObjects_range, ← hobjs] at hoo
        obtain ⟨x, n, x1, x2, v, x3, x4⟩ := hall o hoo
        refine ⟨v, x, n, x3, x1, x2, ?_⟩
        rw [hbox] at x4
        exact x4)
      garbage order ho perm hperm mx dev lim buf hlim hmx h8
    rw [List.length_map, List.length_range] at w1
    have hg : ∀ r < W, ∃ d, world'[r]? = some d := fun r hr' => ⟨_, List.getElem?_eq_getElem (by rw [w1]; exact hr')⟩
    refine ⟨fun r => world'[r]?.getD [], t, ids, nid, d1, ex, ?_, by rw [hbox]; exact w3, ?_, ?_⟩
    · intro r l hl'
      have hr' := hrl hl'
      obtain ⟨d', a1, a2, -⟩ := w2 r _ l _ (range_get_map W s.data hr') hl' (range_get_map W s.locals hr')
      show pushInsert _ _ _ _ = .ok (world'[r]?.getD [])
      rw [a1]; exact a2
    · intro r hr'
      obtain ⟨d', a1⟩ := hg r hr'
      have := w4 r d' a1
      show computeNewPid _ _ _ (world'[r]?.getD []) = _ ∧ extractAll _ _ _ _ _ (world'[r]?.getD []) _ = _
      rw [a1]; exact this
    · intro ser deser hsd hfit
      have w6 := w5 ser deser (fun r hr' e hee hge hoe => hsd r (by rw [← w1]; exact hr') e hee hge fun o hoo => by
        have := hoe o hoo
        rw [allObjects_range, ← hobjs] at this
        exact this) (by rw [w1]; exact hfit)
      rw [w1] at w6
      refine w6.mono fun r hrl' recv hP => ?_
      have hr' : r < W := by simpa using hrl'
      obtain ⟨d', a1⟩ := hg r hr'
      obtain ⟨d2, c1, c2, c3, c4⟩ := hP d' a1
      obtain ⟨d'', e1, -, e3⟩ := w2 r _ _ _ (range_get_map W s.data hr') (List.getElem?_eq_getElem (by rw [hlen]; exact hr')) (range_get_map W s.locals hr')
      rw [a1, Option.some.injEq] at e1
      subst e1
      refine ⟨d2, c1, by rw [hbox]; exact c3, c2.trans e3, fun kv hkv => ⟨(c4 kv hkv).1, fun p hp hpe => ?_⟩⟩
      have := (c4 kv hkv).2 p hp hpe
      rw [allObjects_range, ← hobjs] at this
      unfold InPatch
      rw [hbox]
      exact this
  · obtain ⟨a1, a2⟩ := pushed_state b he hW hW2 h hdj hri rs hr hnd hb objs hall data2 hd
    have hy' : Synced W { s with data := data2 } := hy
    have hl' : BalLimits env b smin (allObj W data2) := hl.perm a1
    have hid' : s.tree.nextId + 30 * (8 * ((allObj W data2).length / (env.critSplit + 1))) ≤ 2 ^ 32 := by rw [a1.length_eq]; exact hid
    obtain ⟨c1, c2⟩ := C42_balance env b smin he W hW hW2 { s with data := data2 } a2 hy' hl' hid'
    refine ⟨a1, a2, c1, fun s' hs' => ?_⟩
    obtain ⟨d1, d2, d3, d4⟩ := c2 s' hs'
    exact ⟨d1.trans a1, d2, d3, d4⟩

end Shamrock
