import Verif.Proof.SchedTree
/-! The patch data under the splits and merges of the scheduler. -/
namespace Shamrock

attribute [local irreducible] u64max

theorem mfind_of_nodup {V : Type} {m : List (Nat × V)} (hm : (m.map (·.1)).Nodup) {kv : Nat × V} (h : kv ∈ m) : mfind m kv.1 = some kv.2 := by
  obtain ⟨v, hv⟩ := mfind_of_key m kv.1 (List.mem_map_of_mem h)
  have := mfind_mem' m kv.1 v hv
  have e : (kv.1, v) = kv := List.inj_on_of_nodup_map hm this h rfl
  rw [hv]
  exact congrArg some (congrArg Prod.snd e)

theorem mfind_no_key {V : Type} {m : List (Nat × V)} {k : Nat} (h : k ∉ m.map (·.1)) : mfind m k = none :=
  mfind_none.2 (fun x hx e => h (by rw [← e]; exact List.mem_map_of_mem (f := (·.1)) hx))

/-- The position of the object is in the domain box of the patch coordinates. -/
def InPatch {α F : Type} [LinearOrder F] (pos : α → V3 F) (box : PatchCoord → V3 F × V3 F) (c : PatchCoord) (o : List (List α)) : Prop :=
  ∃ v, objPos 0 pos o = some v ∧ InHalfOpen (box c).1 (box c).2 v

/-- What the properties need of the constants of a run. -/
structure EnvOk {α F : Type} [LinearOrder F] (env : SchedEnv α F) (smin : V3 Nat) : Prop where
  lay : env.lay ≠ [] ∧ ∀ v ∈ env.lay, 0 < v
  order : ∀ id k q, GoodOrder (env.order id k q)
  box : ∃ (A : MonoArith F) (fact dmin : V3 F), (A.goodFact fact.x ∧ A.goodFact fact.y ∧ A.goodFact fact.z) ∧ env.box = domainBox A fact dmin smin

theorem pdSplit_ok {α F : Type} [LinearOrder F] {env : SchedEnv α F} {smin : V3 Nat} (he : EnvOk env smin) {c : PatchCoord} (hc : CoordOk smin c)
    (hs : Splittable c) {l : PLayer α} (hl : l.Good env.lay) (hin : ∀ o ∈ l.objects, InPatch env.pos env.box c o) {d : RankData α} (hd : MapOk d)
    {key : Nat} (hk : mfind d key = some l) {ps : List Patch} (hps : ps.map (·.coord) = getSplit c) (hnd : (ps.map (·.idPatch)).Nodup)
    (hfree : ∀ p ∈ ps, p.idPatch ≠ key → mfind d p.idPatch = none) :
    ∃ d', pdSplit env key ps d = .ok d' ∧ MapOk d' ∧
      (∀ id, id ∉ ps.map (·.idPatch) → mfind d' id = if id = key then none else mfind d id) ∧
      (∀ p ∈ ps, ∃ l', mfind d' p.idPatch = some l' ∧ l'.Good env.lay ∧ ∀ o ∈ l'.objects, InPatch env.pos env.box p.coord o) ∧
      (ps.flatMap fun p => match mfind d' p.idPatch with | some l' => l'.objects | none => []).Perm l.objects := by
  obtain ⟨A, fact, dmin, hf, hbox⟩ := he.box
  obtain ⟨hne, hpos⟩ := he.lay
  obtain ⟨g1, g2, -⟩ := good_count hne hl
  have hpslen : ps.length = 8 := by
    have := congrArg List.length hps
    rw [List.length_map, getSplit_length] at this
    exact this
  -- positions of the objects
  have hposx : ∀ i, ∃ v, i < l.objects.length → objPos 0 env.pos (l.lobj i) = some v ∧ InHalfOpen (env.box c).1 (env.box c).2 v := by
    intro i
    by_cases hi : i < l.objects.length
    · obtain ⟨v, hv⟩ := hin (l.lobj i) (List.mem_of_getElem? (good_get hne hl i hi))
      exact ⟨v, fun _ => hv⟩
    · exact ⟨(env.box c).1, fun h => absurd h hi⟩
  choose posOf hposOf using hposx
  have hPO : PosOf env.pos l l.objects.length posOf := by
    cases l with
    | nil => exact absurd hl.1.symm hne
    | cons f r =>
      refine ⟨f, rfl, fun i hi => ?_⟩
      have := (hposOf i hi).1
      unfold objPos at this
      have e : (PLayer.lobj (f :: r) i)[0]? = some (f.obj i) := rfl
      rw [e, Option.bind_some] at this
      cases hv : (f.obj i)[0]? with
      | none => rw [hv] at this; cases this
      | some v => rw [hv] at this; exact ⟨v, rfl, Option.some.inj this⟩
  have hemp : ∀ o ∈ List.replicate 8 (PLayer.empty env.lay : PLayer α), PLayer.LWF o 0 ∧ l.SameShape o := by
    intro o ho
    rw [List.eq_of_mem_replicate ho]
    obtain ⟨e1, e2⟩ := good_empty (α := α) hne hpos
    obtain ⟨e3, -, -⟩ := good_count hne e1
    rw [e2] at e3
    exact ⟨e3, by unfold PLayer.SameShape; rw [hl.1, e1.1]⟩
  obtain ⟨outs, o1, o2, o3, o4⟩ := C38_split_patch A fact dmin smin hf c hc.1 hs hc.2.1 env.pos env.garbage (env.order key) (he.order key) l _ g1 posOf hPO
    (List.replicate 8 (PLayer.empty env.lay)) (List.length_replicate) hemp (by
      intro i hi
      have := (hposOf i hi).2
      rw [hbox] at this
      exact this)
  have hboxes : ps.map (fun p => env.box p.coord) = childBoxes A fact dmin smin c := by
    unfold childBoxes
    rw [← hps, List.map_map, hbox]; rfl
  have hzf : (((ps.map (·.idPatch)).zip outs).map (·.1)) = ps.map (·.idPatch) := by
    rw [List.map_fst_zip]; rw [List.length_map, hpslen, o2]
  obtain ⟨m1, m2, -⟩ := merase_spec d hd key
  obtain ⟨d', a1, a2, a3⟩ := addAll_spec ((ps.map (·.idPatch)).zip outs) (ddErase d key) m1 (by rw [hzf]; exact hnd) (by
    intro k hk'
    rw [hzf] at hk'
    obtain ⟨p, hp, rfl⟩ := List.mem_map.1 hk'
    unfold ddErase
    rw [m2]
    by_cases e : p.idPatch = key
    · rw [if_pos e]
    · rw [if_neg e]; exact hfree p hp e)
  -- the layer of each new patch
  have hget : ∀ (i : Nat) p, ps[i]? = some p → ∃ l', outs[i]? = some l' ∧ mfind d' p.idPatch = some l' ∧ l'.Good env.lay ∧
      l'.objects = (idsIn posOf l.objects.length (env.box p.coord)).map l.lobj := by
    intro i p hi
    have hilt := (List.getElem?_eq_some_iff.1 hi).1
    have hb : (childBoxes A fact dmin smin c)[i]? = some (env.box p.coord) := by
      rw [← hboxes, List.getElem?_map, hi]; rfl
    obtain ⟨l', b1, b2, b3, b4⟩ := o3 i _ hb
    obtain ⟨c1, c2⟩ := good_of hne (by rw [← hl.1]; exact b3.symm) b2
    refine ⟨l', b1, ?_, c1, by rw [c2, b4]⟩
    have hmem : (p.idPatch, l') ∈ (ps.map (·.idPatch)).zip outs := by
      rw [List.mem_iff_getElem?]
      refine ⟨i, ?_⟩
      rw [List.getElem?_zip_eq_some]
      exact ⟨by rw [List.getElem?_map, hi]; rfl, b1⟩
    rw [a3, mfind_of_nodup (by rw [hzf]; exact hnd) hmem]; rfl
  refine ⟨d', ?_, a2, ?_, ?_, ?_⟩
  · unfold pdSplit
    rw [hk]
    simp only
    rw [hboxes, o1]
    exact a1
  · intro id hid
    rw [a3, mfind_no_key (by rw [hzf]; exact hid), Option.none_or]
    unfold ddErase
    rw [m2]
  · intro p hp
    obtain ⟨i, hi⟩ := List.mem_iff_getElem?.1 hp
    obtain ⟨l', b1, b2, b3, b4⟩ := hget i p hi
    refine ⟨l', b2, b3, fun o ho => ?_⟩
    rw [b4] at ho
    obtain ⟨j, hj, rfl⟩ := List.mem_map.1 ho
    rw [mem_idsIn] at hj
    exact ⟨posOf j, (hposOf j hj.1).1, hj.2⟩
  · have e : (ps.flatMap fun p => match mfind d' p.idPatch with | some l' => l'.objects | none => []) =
        ((childBoxes A fact dmin smin c).flatMap (idsIn posOf l.objects.length)).map l.lobj := by
      rw [← hboxes, List.flatMap_map, List.map_flatMap]
      apply List.flatMap_congr
      intro p hp
      obtain ⟨i, hi⟩ := List.mem_iff_getElem?.1 hp
      obtain ⟨l', b1, b2, b3, b4⟩ := hget i p hi
      rw [b2]
      exact b4
    rw [e]
    refine (o4.map _).trans ?_
    have : (List.range l.objects.length).map l.lobj = l.objects := g2
    rw [this]

end Shamrock
namespace Shamrock

attribute [local irreducible] u64max getSplit

theorem pdMerge_ok {α : Type} {lay : List Nat} (hne : lay ≠ []) (hpos : ∀ v ∈ lay, 0 < v) {d : RankData α} (hd : MapOk d) {keys : List Nat} {ls : List (PLayer α)}
    (hk : List.Forall₂ (fun k l => mfind d k = some l) keys ls) (hg : ∀ l ∈ ls, l.Good lay) (hsz : ∀ v ∈ lay, (ls.flatMap PLayer.objects).length * v < 2 ^ 32)
    {new : Nat} (hnew : new ∈ keys) :
    ∃ d' l', pdMerge lay new keys d = .ok d' ∧ MapOk d' ∧ (∀ id, id ≠ new → mfind d' id = if id ∈ keys then none else mfind d id) ∧
      mfind d' new = some l' ∧ l'.Good lay ∧ l'.objects = ls.flatMap PLayer.objects := by
  obtain ⟨e1, e2⟩ := good_empty (α := α) hne hpos
  obtain ⟨l', a1, a2, a3⟩ := insertAllInto_ok hne ls (PLayer.empty lay) e1 hg (by rw [e2]; simpa using hsz)
  obtain ⟨m1, m2⟩ := eraseAll_spec keys d hd
  obtain ⟨d', b1, b2, b3⟩ := addAll_spec [(new, l')] (keys.foldl ddErase d) m1 (by simp) (by
    intro k hk'
    simp only [List.map_cons, List.map_nil, List.mem_singleton] at hk'
    rw [hk', m2, if_pos hnew])
  refine ⟨d', l', ?_, b2, ?_, ?_, a2, by rw [a3, e2]; rfl⟩
  · unfold pdMerge
    rw [findAll_ok d keys ls hk]
    simp only [Res.bind]
    rw [a1]
    exact b1
  · intro id hid
    rw [b3, m2]
    simp only [mfind]
    rw [if_neg (fun e => hid e.symm)]; rfl
  · rw [b3]
    simp only [mfind]
    simp

/-- Replacing one element of a list. -/
theorem perm_set {β : Type} : ∀ (g : List β) (i : Nat) (p q : β), g[i]? = some p → (p :: g.set i q).Perm (q :: g) := by
  intro g
  induction g with
  | nil => intro i p q h; simp at h
  | cons x g ih =>
    intro i p q h
    cases i with
    | zero =>
      simp only [List.getElem?_cons_zero, Option.some.injEq] at h
      subst h
      exact List.Perm.swap _ _ _
    | succ i =>
      rw [List.getElem?_cons_succ] at h
      show (p :: x :: g.set i q).Perm (q :: x :: g)
      refine (List.Perm.swap _ _ _).trans (((ih i p q h).cons x).trans (List.Perm.swap _ _ _))

/-- What holds of the scheduler while it splits patches. -/
structure SplInv {α F : Type} [LinearOrder F] (env : SchedEnv α F) (smin : V3 Nat) (W : Nat) (s : Sched α) : Prop where
  tl : TLInv smin s.tree s.global
  dinv : DInv W env.lay (InPatch env.pos env.box) s.global s.data
  pid : ∀ p ∈ s.global, p.idPatch < s.nextPid
  next : s.nextPid ≤ s.tree.nextId

/-- Each layer of `d'` is made of objects of one layer of `d` on the same rank. -/
def Finer {α : Type} (W : Nat) (d' d : Nat → RankData α) : Prop :=
  ∀ r < W, ∀ id l, mfind (d' r) id = some l → ∃ id' l', mfind (d r) id' = some l' ∧ l.objects.Subperm l'.objects

theorem Finer.refl {α : Type} (W : Nat) (d : Nat → RankData α) : Finer W d d := fun _ _ id l h => ⟨id, l, h, List.Subperm.refl _⟩
theorem Finer.trans {α : Type} {W : Nat} {a b c : Nat → RankData α} (h : Finer W a b) (g : Finer W b c) : Finer W a c := by
  intro r hr id l hl
  obtain ⟨id', l', h1, h2⟩ := h r hr id l hl
  obtain ⟨id'', l'', g1, g2⟩ := g r hr id' l' h1
  exact ⟨id'', l'', g1, h2.trans g2⟩

/-- Two lists with the same patch ids at the common positions. -/
def SameIds (g g' : List Patch) : Prop := ∀ (i : Nat) p, g[i]? = some p → ∃ q, g'[i]? = some q ∧ q.idPatch = p.idPatch

theorem SameIds.refl (g : List Patch) : SameIds g g := fun _ p h => ⟨p, h, rfl⟩
theorem SameIds.trans {a b c : List Patch} (h : SameIds a b) (h' : SameIds b c) : SameIds a c := by
  intro i p hi
  obtain ⟨q, q1, q2⟩ := h i p hi
  obtain ⟨r, r1, r2⟩ := h' i q q1
  exact ⟨r, r1, r2.trans q2⟩

theorem getSplit_cons (p : Patch) : ∃ s0 r, p.getSplit = s0 :: r ∧ r.length = 7 := by
  have : p.getSplit.length = 8 := (C35_split_patch_fields p).1
  cases h : p.getSplit with
  | nil => rw [h] at this; cases this
  | cons a r => rw [h] at this; exact ⟨a, r, rfl, by simpa using this⟩

theorem splitOne_ok {α F : Type} [LinearOrder F] {env : SchedEnv α F} {smin : V3 Nat} (he : EnvOk env smin) {W : Nat} {s : Sched α} (H : SplInv env smin W s)
    (im : Nat → Nat) (junk tid : Nat) {n : PTNode} (hx : s.tree.tree tid = some n) (hl : n.isLeaf = true) (hs : Splittable n.coord)
    (hN : s.tree.nextId + 8 ≤ 2 ^ 32) (him : ∃ q, s.global[im n.linked]? = some q ∧ q.idPatch = n.linked) :
    ∃ s', splitOne env W im junk s tid = .ok s' ∧ SplInv env smin W s' ∧ s'.tree.nextId = s.tree.nextId + 8 ∧
      (∀ y m, y ≠ tid → s.tree.tree y = some m → ∃ b, s'.tree.tree y = some { m with allLeafs := b }) ∧
      (allObj W s'.data).Perm (allObj W s.data) ∧ SameIds s.global s'.global ∧
      (s'.global.map (·.loadValue)).sum ≤ (s.global.map (·.loadValue)).sum ∧ s'.global.length = s.global.length + 7 ∧
      ((∀ p ∈ s.global, p.packNodeIndex = u64max) → ∀ p ∈ s'.global, p.packNodeIndex = u64max) ∧
      s'.locals = s.locals ∧ s'.owned = s.owned ∧ s'.fresh = s.fresh ∧ Finer W s'.data s.data := by
  obtain ⟨p, hp, hpid⟩ := him
  have hpG : p ∈ s.global := List.mem_of_getElem? hp
  have hnd := H.dinv.owned.ids
  obtain ⟨s0, r, hsr, hr7⟩ := getSplit_cons p
  obtain ⟨f1, f2, f3, f4⟩ := C35_split_patch_fields p
  rw [hsr] at f2 f3 f4
  have hs0 : s0.idPatch = p.idPatch := by
    have : s0 ∈ p.getSplit := by rw [hsr]; exact List.mem_cons_self
    simp only [Patch.getSplit, List.mem_map] at this
    obtain ⟨c, _, rfl⟩ := this; rfl
  have hpk : ∀ q ∈ s0 :: r, q.packNodeIndex = p.packNodeIndex := by
    intro q hq
    rw [← hsr] at hq
    simp only [Patch.getSplit, List.mem_map] at hq
    obtain ⟨c, _, rfl⟩ := hq; rfl
  have hgmem : ∀ q ∈ giveIds s.nextPid r, (∃ q' ∈ r, q.nodeOwnerId = q'.nodeOwnerId ∧ q.packNodeIndex = q'.packNodeIndex) ∧ s.nextPid ≤ q.idPatch ∧ q.idPatch < s.nextPid + 7 := by
    intro q hq
    have hid : q.idPatch ∈ (giveIds s.nextPid r).map (·.idPatch) := List.mem_map_of_mem hq
    rw [giveIds_ids, List.mem_range'_1, hr7] at hid
    refine ⟨?_, hid⟩
    have h1 : (q.nodeOwnerId, q.packNodeIndex) ∈ (giveIds s.nextPid r).map (fun p => (p.nodeOwnerId, p.packNodeIndex)) := List.mem_map.2 ⟨q, hq, rfl⟩
    rw [giveIds_map (fun p => (p.nodeOwnerId, p.packNodeIndex)) (fun _ _ => rfl)] at h1
    obtain ⟨q', e1, e2⟩ := List.mem_map.1 h1
    exact ⟨q', e1, by rw [Prod.mk.injEq] at e2; exact ⟨e2.1.symm, e2.2.symm⟩⟩
  -- names
  obtain ⟨kids, hkids⟩ : ∃ kids, kids = s0 :: giveIds s.nextPid r := ⟨_, rfl⟩
  obtain ⟨g', hg'⟩ : ∃ g', g' = s.global.set (im n.linked) s0 ++ giveIds s.nextPid r := ⟨_, rfl⟩
  have hlist : listSplit im s.global s.nextPid n.linked = .ok (g', s.nextPid + 7, im n.linked :: List.range' s.global.length 7) := by
    unfold listSplit
    rw [hp]
    simp only
    rw [hsr]
    simp only
    rw [hr7, hg']
  have hlt : im n.linked < s.global.length := (List.getElem?_eq_some_iff.1 hp).1
  have hat : patchesAt g' (im n.linked :: List.range' s.global.length 7) = .ok kids := by
    apply patchesAt_ok
    rw [hkids, hg']
    refine List.Forall₂.cons ?_ ?_
    · rw [List.getElem?_append_left (by rw [List.length_set]; exact hlt), List.getElem?_set_self hlt]
    · have hgl : (giveIds s.nextPid r).length = 7 := by rw [giveIds_length, hr7]
      refine List.forall₂_iff_get.2 ⟨by rw [List.length_range', hgl], fun i h1 h2 => ?_⟩
      have h3 : i < 7 := by rw [List.length_range'] at h1; exact h1
      simp only [List.get_eq_getElem, List.getElem_range', Nat.one_mul]
      rw [List.getElem?_append_right (by rw [List.length_set]; omega), List.length_set, Nat.add_sub_cancel_left]
      exact List.getElem?_eq_getElem _
  -- the list as a permutation
  obtain ⟨R, hR⟩ : ∃ R, s.global.Perm (p :: R) := by
    obtain ⟨a, b, e⟩ := List.mem_iff_append.1 hpG
    exact ⟨a ++ b, by rw [e]; exact List.perm_middle⟩
  have hG' : g'.Perm (kids ++ R) := by
    have h1 := perm_set s.global (im n.linked) p s0 hp
    have h2 : (p :: g').Perm (p :: (kids ++ R)) := by
      rw [hg', hkids]
      have : (p :: (s.global.set (im n.linked) s0 ++ giveIds s.nextPid r)) = (p :: s.global.set (im n.linked) s0) ++ giveIds s.nextPid r := rfl
      rw [this]
      refine (h1.append_right _).trans ?_
      refine (((hR.cons s0).append_right _)).trans ?_
      show (s0 :: p :: R ++ giveIds s.nextPid r).Perm (p :: (s0 :: giveIds s.nextPid r ++ R))
      refine (List.Perm.swap _ _ _).trans ?_
      exact ((List.perm_append_comm).cons s0).cons p
    exact (List.perm_cons p).1 h2
  have hRid : ∀ q ∈ R, q.idPatch ≠ p.idPatch ∧ q.idPatch < s.nextPid := by
    intro q hq
    have := (hR.map (·.idPatch)).nodup_iff.1 hnd
    rw [List.map_cons, List.nodup_cons] at this
    refine ⟨fun e => this.1 (by rw [← e]; exact List.mem_map_of_mem (f := (·.idPatch)) hq), H.pid q (hR.mem_iff.2 (List.mem_cons_of_mem _ hq))⟩
  have hppid := H.pid p hpG
  have hkmem : ∀ k ∈ kids, (k.idPatch = p.idPatch ∨ (s.nextPid ≤ k.idPatch ∧ k.idPatch < s.nextPid + 7)) ∧ k.nodeOwnerId = p.nodeOwnerId ∧ k.packNodeIndex = p.packNodeIndex := by
    intro k hk
    rw [hkids] at hk
    rcases List.mem_cons.1 hk with rfl | hk
    · exact ⟨Or.inl hs0, f2 _ List.mem_cons_self, hpk _ List.mem_cons_self⟩
    · obtain ⟨⟨q', a1, a2, a3⟩, a4⟩ := hgmem k hk
      exact ⟨Or.inr a4, by rw [a2]; exact f2 _ (List.mem_cons_of_mem _ a1), by rw [a3]; exact hpk _ (List.mem_cons_of_mem _ a1)⟩
  have hkc : kids.map (·.coord) = getSplit p.coord := by
    rw [hkids, List.map_cons, giveIds_map (·.coord) (fun _ _ => rfl), ← f3]; rfl
  have hkn : (kids.map (·.idPatch)).Nodup := by
    rw [hkids, List.map_cons, giveIds_ids, List.nodup_cons, hs0]
    refine ⟨?_, List.nodup_range'⟩
    rw [List.mem_range'_1]; omega
  have hkR : ∀ k ∈ kids, ∀ q ∈ R, k.idPatch ≠ q.idPatch := by
    intro k hk q hq e
    obtain ⟨h1, h2⟩ := hRid q hq
    rcases (hkmem k hk).1 with h | h
    · exact h1 (by rw [← e]; exact h)
    · omega
  obtain ⟨hpc, t1, nd, t2, t3, b1, b2, b3, b4, b5, b6, b7, b8⟩ :=
    tl_split H.tl hR hnd hx hl hpid.symm hs hN junk kids hkc hkn hkR hG'
  -- the data
  obtain ⟨how, l, hpl⟩ := H.dinv.owned.owner p hpG
  have hcoord : CoordOk smin p.coord := by rw [hpc]; exact H.tl.coords tid n hx
  obtain ⟨d', c1, c2, c3, c4, c5⟩ := pdSplit_ok he hcoord (by rw [hpc]; exact hs) (H.dinv.good _ how _ _ hpl) (H.dinv.place p hpG l hpl)
    (H.dinv.owned.maps _ how) hpl hkc hkn (by
      intro k hk hne'
      cases hf : mfind (s.data p.nodeOwnerId) k.idPatch with
      | none => rfl
      | some x =>
        obtain ⟨q, q1, q2, -⟩ := H.dinv.owned.only _ how _ _ hf
        have := H.pid q q1
        rcases (hkmem k hk).1 with h | h
        · exact absurd h hne'
        · omega)
  have hdata : allRanks (fun _ d => pdSplit env nd.linked kids d) W s.data = .ok (fun r => if r < W then (if r = p.nodeOwnerId then d' else s.data r) else s.data r) := by
    apply allRanks_ok
    intro r hr
    by_cases e : r = p.nodeOwnerId
    · rw [if_pos e, e, b3]; exact c1
    · rw [if_neg e, b3]
      unfold pdSplit
      have : mfind (s.data r) p.idPatch = none := by
        cases hf : mfind (s.data r) p.idPatch with
        | none => rfl
        | some x =>
          obtain ⟨q, q1, q2, q3⟩ := H.dinv.owned.only r hr _ _ hf
          have : q = p := owned_inj hnd q1 hpG q2
          exact absurd (by rw [← q3, this]) e
      rw [this]
  obtain ⟨data', hdd⟩ : ∃ data', data' = (fun r => if r < W then (if r = p.nodeOwnerId then d' else s.data r) else s.data r) := ⟨_, rfl⟩
  rw [← hdd] at hdata
  have hdo : data' p.nodeOwnerId = d' := by rw [hdd]; show (if _ then _ else _) = _; rw [if_pos how, if_pos rfl]
  obtain ⟨D1, D2⟩ := (H.dinv.perm (show s.global.Perm ([p] ++ R) from hR)).replace (B := kids) (data' := data') p.nodeOwnerId how
    (fun q hq => by rw [List.mem_singleton.1 hq]) (fun q hq => (hkmem q hq).2.1) hkn hkR (by rw [hdo]; exact c2)
    (fun id hid => by
      rw [hdo, c3 id hid]
      by_cases e : id = p.idPatch
      · rw [if_pos e, if_pos (by rw [e]; simp)]
      · rw [if_neg e, if_neg (by simpa using e)])
    (fun q hq => by rw [hdo]; exact c4 q hq)
    (fun r hr hne' => by rw [hdd]; show (if _ then _ else _) = _; rw [if_pos hr, if_neg hne'])
  have D2 := D2 (by
    have e1 : [p].flatMap (patchObjs s.data) = l.objects := by
      rw [List.flatMap_singleton]
      unfold patchObjs
      rw [hpl]
    have e2 : kids.flatMap (patchObjs data') = kids.flatMap fun p => match mfind d' p.idPatch with | some l' => l'.objects | none => [] := by
      apply List.flatMap_congr
      intro k hk
      unfold patchObjs
      rw [(hkmem k hk).2.1, hdo]
      cases mfind d' k.idPatch <;> rfl
    rw [e1, e2]
    exact c5.symm)
  refine ⟨{ s with tree := t3, global := g', nextPid := s.nextPid + 7, data := data' }, ?_, ⟨b6, D1.perm hG'.symm, ?_, ?_⟩, b7, b8, D2, ?_, ?_, ?_, ?_, rfl, rfl, rfl, ?_⟩
  · unfold splitOne
    rw [b1]
    simp only [Res.bind]
    rw [b2]
    simp only
    rw [b3, hpid, hlist]
    simp only
    rw [hat]
    simp only
    rw [b4]
    simp only
    rw [b5]
    simp only
    rw [b3, hpid] at hdata
    rw [hdata]
  · intro q hq
    show q.idPatch < s.nextPid + 7
    rcases List.mem_append.1 (hG'.mem_iff.1 hq) with h | h
    · rcases (hkmem q h).1 with h | h <;> omega
    · have := (hRid q h).2; omega
  · show s.nextPid + 7 ≤ t3.nextId
    have := H.next
    rw [b7]; omega
  · intro i q hi
    show ∃ q', g'[i]? = some q' ∧ _
    have hil := (List.getElem?_eq_some_iff.1 hi).1
    rw [hg', List.getElem?_append_left (by rw [List.length_set]; exact hil)]
    by_cases e : i = im n.linked
    · subst e
      rw [hp, Option.some.injEq] at hi
      subst hi
      exact ⟨s0, List.getElem?_set_self hlt, hs0⟩
    · exact ⟨q, by rw [List.getElem?_set_ne (fun h => e h.symm)]; exact hi, rfl⟩
  · show (g'.map (·.loadValue)).sum ≤ _
    have e1 := (hG'.map (·.loadValue)).sum_eq
    have e2 := (hR.map (·.loadValue)).sum_eq
    rw [e1, e2, List.map_append, List.sum_append, List.map_cons, List.sum_cons]
    have : (kids.map (·.loadValue)).sum ≤ p.loadValue := by
      rw [hkids, List.map_cons, giveIds_map (·.loadValue) (fun _ _ => rfl)]
      exact f4
    omega
  · show g'.length = _
    rw [hg', List.length_append, List.length_set, giveIds_length, hr7]
  · intro h q hq
    have hq : q ∈ g' := hq
    rcases List.mem_append.1 (hG'.mem_iff.1 hq) with hk | hk
    · rw [(hkmem q hk).2.2]; exact h p hpG
    · exact h q (hR.mem_iff.2 (List.mem_cons_of_mem _ hk))
  · intro r hr id x hx'
    have hx' : mfind (data' r) id = some x := hx'
    by_cases e : r = p.nodeOwnerId
    · rw [e, hdo] at hx'
      by_cases hin : id ∈ kids.map (·.idPatch)
      · obtain ⟨k, k1, k2⟩ := List.mem_map.1 hin
        refine ⟨p.idPatch, l, by rw [e]; exact hpl, ?_⟩
        refine List.Subperm.trans ?_ c5.subperm
        obtain ⟨u, v, huv⟩ := List.append_of_mem k1
        rw [huv, List.flatMap_append, List.flatMap_cons, k2, hx']
        exact ((List.sublist_append_left _ _).trans (List.sublist_append_right _ _)).subperm
      · rw [c3 id hin] at hx'
        by_cases e2 : id = p.idPatch
        · rw [if_pos e2] at hx'; cases hx'
        · rw [if_neg e2] at hx'
          exact ⟨id, x, by rw [e]; exact hx', List.Subperm.refl _⟩
    · have : data' r = s.data r := by rw [hdd]; show (if _ then _ else _) = _; rw [if_pos hr, if_neg e]
      rw [this] at hx'
      exact ⟨id, x, hx', List.Subperm.refl _⟩

end Shamrock
