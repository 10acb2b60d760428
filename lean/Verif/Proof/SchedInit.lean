import Verif.Proof.SchedPost
/-! The creation of the root patches, and the updates of the load values. -/
namespace Shamrock

attribute [local irreducible] u64max getSplit

theorem tl_root {smin : V3 Nat} {t : PTree} {G : List Patch} (H : TLInv smin t G) (p : Patch) (hp : p.idPatch < 2 ^ 32) (hnew : ∀ q ∈ G, q.idPatch ≠ p.idPatch)
    (hc : CoordOk smin p.coord) (hN : t.nextId + 1 ≤ 2 ^ 32) : TLInv smin (t.insertRoot p.idPatch p.coord) (G ++ [p]) := by
  have hg : ∀ x, (t.insertRoot p.idPatch p.coord).tree x = if x = t.nextId then some (PTNode.fresh p.coord 0 u64max (p.idPatch % 2 ^ 32)) else t.tree x := fun _ => rfl
  have hmod : p.idPatch % 2 ^ 32 = p.idPatch := Nat.mod_eq_of_lt hp
  have hcases : ∀ x n, (t.insertRoot p.idPatch p.coord).tree x = some n →
      (x = t.nextId ∧ n = PTNode.fresh p.coord 0 u64max p.idPatch) ∨ (x ≠ t.nextId ∧ t.tree x = some n) := by
    intro x n h
    rw [hg, hmod] at h
    by_cases hx : x = t.nextId
    · rw [if_pos hx, Option.some.injEq] at h; exact Or.inl ⟨hx, h.symm⟩
    · rw [if_neg hx] at h; exact Or.inr ⟨hx, h⟩
  have f1 : (PTNode.fresh p.coord 0 u64max p.idPatch).coord = p.coord := rfl
  have f2 : (PTNode.fresh p.coord 0 u64max p.idPatch).isLeaf = true := rfl
  have f3 : (PTNode.fresh p.coord 0 u64max p.idPatch).linked = p.idPatch := rfl
  refine ⟨root_inv t H.tinv _ _ hN, TLev.root H.tinv H.lev _ _ hN, ?_, ?_, ?_, ?_, ?_, ?_⟩
  · intro x n hx
    rcases hcases x n hx with ⟨_, rfl⟩ | ⟨_, h⟩
    · rw [f1]; exact hc
    · exact H.coords x n h
  · intro x n hx hl
    rcases hcases x n hx with ⟨_, rfl⟩ | ⟨_, h⟩
    · rw [f2] at hl; cases hl
    · exact H.splits x n h hl
  · intro x n hx hl
    rcases hcases x n hx with ⟨_, rfl⟩ | ⟨_, h⟩
    · rw [f2] at hl; cases hl
    · exact H.inner x n h hl
  · intro x n hx hl
    rcases hcases x n hx with ⟨_, rfl⟩ | ⟨_, h⟩
    · exact ⟨p, List.mem_append_right _ List.mem_cons_self, f3.symm, f1.symm⟩
    · obtain ⟨q, q1, q2⟩ := H.leafP x n h hl
      exact ⟨q, List.mem_append_left _ q1, q2⟩
  · intro q hq
    rcases List.mem_append.1 hq with hq | hq
    · obtain ⟨x, n, n1, n2, n3⟩ := H.patchL q hq
      refine ⟨x, n, ?_, n2, n3⟩
      have := H.tinv.fresh x n n1
      rw [hg, if_neg (by omega)]
      exact n1
    · rw [List.mem_singleton] at hq
      subst hq
      exact ⟨t.nextId, _, by rw [hg, if_pos rfl, hmod], f2, f3⟩
  · intro x y n m hx hy h1 h2 h3
    rcases hcases x n hx with ⟨ex, en⟩ | ⟨ex, hx'⟩ <;> rcases hcases y m hy with ⟨ey, em⟩ | ⟨ey, hy'⟩
    · rw [ex, ey]
    · exfalso
      obtain ⟨q, q1, q2, -⟩ := H.leafP y m hy' h2
      rw [en, f3] at h3
      exact hnew q q1 (q2.trans h3.symm)
    · exfalso
      obtain ⟨q, q1, q2, -⟩ := H.leafP x n hx' h1
      rw [em, f3] at h3
      exact hnew q q1 (q2.trans h3)
    · exact H.inj x y n m hx' hy' h1 h2 h3

/-- What holds while root patches are added. -/
structure RootInv {α F : Type} [LinearOrder F] (env : SchedEnv α F) (smin : V3 Nat) (W : Nat) (s : Sched α) : Prop where
  inv : SplInv env smin W s
  pos : ∀ p ∈ s.global, p.nodeOwnerId = 0 ∧ p.packNodeIndex = u64max ∧ p.loadValue = 0
  objs : allObj W s.data = []
  owned : ∀ r, s.owned r = []
  len : s.global.length = s.nextPid ∧ s.tree.nextId = s.nextPid

theorem rootInv_empty {α F : Type} [LinearOrder F] (env : SchedEnv α F) (smin : V3 Nat) (W : Nat) : RootInv env smin W (Sched.empty : Sched α) := by
  have hn : ∀ x n, (Sched.empty : Sched α).tree.tree x = some n → False := fun x n h => by cases h
  have hd : ∀ r, (Sched.empty : Sched α).data r = [] := fun _ => rfl
  refine ⟨⟨⟨TInv.init, TLev.init, fun x n h => absurd (hn x n h) id, fun x n h => absurd (hn x n h) id, fun x n h => absurd (hn x n h) id, fun x n h => absurd (hn x n h) id,
    fun p h => absurd h List.not_mem_nil, fun x y n m h => absurd (hn x n h) id⟩,
    ⟨⟨fun r _ => by rw [hd]; exact List.Pairwise.nil, List.nodup_nil, fun p h => absurd h List.not_mem_nil, fun r _ id d h => by rw [hd] at h; exact absurd h (by simp [mfind])⟩,
      fun r _ id d h => by rw [hd] at h; exact absurd h (by simp [mfind]), fun p h => absurd h List.not_mem_nil⟩, fun p h => absurd h List.not_mem_nil, Nat.le_refl 0⟩,
    fun p h => absurd h List.not_mem_nil, ?_, fun _ => rfl, rfl, rfl⟩
  unfold allObj
  rw [List.flatMap_eq_nil_iff]
  intro r _
  rw [hd]; rfl

theorem addRoot_ok {α F : Type} [LinearOrder F] {env : SchedEnv α F} {smin : V3 Nat} (he : EnvOk env smin) {W : Nat} (hW : 0 < W) {s : Sched α} (H : RootInv env smin W s)
    {c : PatchCoord} (hc : CoordOk smin c) (hN : s.nextPid + 1 ≤ 2 ^ 32) :
    ∃ s', addRoot env.lay s c = .ok s' ∧ RootInv env smin W s' ∧ s'.nextPid = s.nextPid + 1 ∧ s'.global.map (·.coord) = s.global.map (·.coord) ++ [c] := by
  obtain ⟨root, hroot⟩ : ∃ r : Patch, r = ⟨s.nextPid, u64max, 0, c, 0⟩ := ⟨_, rfl⟩
  have hid : root.idPatch = s.nextPid := by rw [hroot]
  have hrc : root.coord = c := by rw [hroot]
  have hro : root.nodeOwnerId = 0 := by rw [hroot]
  have hnew : ∀ q ∈ s.global, q.idPatch ≠ root.idPatch := fun q hq e => by
    have := H.inv.pid q hq
    omega
  have hnone : mfind (s.data 0) s.nextPid = none := by
    cases hm : mfind (s.data 0) s.nextPid with
    | none => rfl
    | some d =>
      obtain ⟨p, p1, p2, -⟩ := H.inv.dinv.owned.only 0 hW _ d hm
      exact absurd (p2.trans hid.symm) (hnew p p1)
  obtain ⟨d0, a1, a2, a3⟩ := addAll_spec [(s.nextPid, (PLayer.empty env.lay : PLayer α))] (s.data 0) (H.inv.dinv.owned.maps 0 hW) (by simp) (by
    intro k hk
    simp only [List.map_cons, List.map_nil, List.mem_singleton] at hk
    rw [hk]; exact hnone)
  have hmk : ∀ k, mfind [(s.nextPid, (PLayer.empty env.lay : PLayer α))] k = if s.nextPid = k then some (PLayer.empty env.lay) else none := by
    intro k
    simp only [mfind]
  have hd0 : ∀ r, upd s.data 0 d0 r = if r = 0 then d0 else s.data r := fun _ => rfl
  have hI := DInv.replace (A := []) (B := [root]) (R := s.global) (data' := upd s.data 0 d0) H.inv.dinv 0 hW (fun p h => absurd h List.not_mem_nil)
    (fun p h => by rw [List.mem_singleton] at h; rw [h]; exact hro) (by simp)
    (fun p h q hq e => by
      rw [List.mem_singleton] at h
      rw [h] at e
      exact hnew q hq e.symm)
    (by rw [hd0, if_pos rfl]; exact a2)
    (fun id hin => by
      rw [hd0, if_pos rfl, a3, hmk, if_neg]
      · simp
      · intro e
        exact hin (by rw [← e, ← hid]; exact List.mem_map_of_mem (f := fun p : Patch => p.idPatch) List.mem_cons_self))
    (fun p h => by
      rw [List.mem_singleton] at h
      subst h
      refine ⟨PLayer.empty env.lay, ?_, (good_empty he.lay.1 he.lay.2).1, ?_⟩
      · rw [hd0, if_pos rfl, a3, hmk, hid, if_pos rfl]; rfl
      · intro x hx
        rw [(good_empty he.lay.1 he.lay.2).2] at hx
        exact absurd hx List.not_mem_nil)
    (fun r _ hr => by rw [hd0, if_neg hr])
  have hobj : patchObjs (upd s.data 0 d0) root = [] := by
    unfold patchObjs
    rw [hro, hd0, if_pos rfl, a3, hmk, hid, if_pos rfl]
    show PLayer.objects (PLayer.empty env.lay) = []
    exact (good_empty he.lay.1 he.lay.2).2
  have hall := hI.2 (by
    rw [List.flatMap_nil, List.flatMap_cons, hobj]
    exact List.Perm.refl _)
  refine ⟨{ s with global := s.global ++ [root], nextPid := s.nextPid + 1, data := upd s.data 0 d0, tree := s.tree.insertRoot s.nextPid c }, ?_, ?_, rfl, ?_⟩
  · unfold addRoot
    rw [← hroot, a1]
    rfl
  · refine ⟨⟨?_, ?_, ?_, ?_⟩, ?_, ?_, H.owned, ?_, ?_⟩
    · have := tl_root H.inv.tl root (by rw [hid]; omega) hnew (by rw [hrc]; exact hc) (by rw [H.len.2]; exact hN)
      rw [hid, hrc] at this
      exact this
    · exact hI.1.perm (List.perm_append_comm)
    · intro p hp
      show p.idPatch < s.nextPid + 1
      rcases List.mem_append.1 hp with hp | hp
      · have := H.inv.pid p hp; omega
      · rw [List.mem_singleton] at hp
        rw [hp, hid]; omega
    · show s.nextPid + 1 ≤ s.tree.nextId + 1
      have := H.len.2
      omega
    · intro p hp
      rcases List.mem_append.1 hp with hp | hp
      · exact H.pos p hp
      · rw [List.mem_singleton] at hp
        rw [hp, hroot]
        exact ⟨rfl, rfl, rfl⟩
    · have := hall
      rw [H.objs] at this
      exact List.perm_nil.1 this
    · show (s.global ++ [root]).length = s.nextPid + 1
      rw [List.length_append, H.len.1]; rfl
    · show s.tree.nextId + 1 = s.nextPid + 1
      rw [H.len.2]
  · show (s.global ++ [root]).map (·.coord) = _
    rw [List.map_append, List.map_singleton, hrc]

/-- Adding roots ends with a scheduler in a correct state. -/
theorem addRoots_ok {α F : Type} [LinearOrder F] {env : SchedEnv α F} {smin : V3 Nat} (he : EnvOk env smin) {W : Nat} (hW : 0 < W) (hW2 : W < 2 ^ 31) : ∀ (cs : List PatchCoord) (s : Sched α),
    RootInv env smin W s → (∀ c ∈ cs, CoordOk smin c) → s.nextPid + cs.length ≤ 2 ^ 32 →
    ∃ s', addRoots env.lay cs s = .ok s' ∧ RootInv env smin W s' ∧ SchedOk env smin W s' ∧ s'.global.map (·.coord) = s.global.map (·.coord) ++ cs ∧
      s'.locals 0 = s'.global ∧ s'.fresh = false ∧ buildGlobal W s'.locals = s'.global := by
  intro cs
  induction cs with
  | nil =>
    intro s H _ _
    have hl : ∀ r, resetPack (buildLocal s.global r) = if r = 0 then s.global else [] := by
      intro r
      by_cases hr : r = 0
      · rw [if_pos hr]
        have : buildLocal s.global r = s.global := by
          unfold buildLocal
          rw [List.filter_eq_self]
          intro p hp
          have h1 := (H.pos p hp).1
          have : p.isErrMode = false := by
            cases he : p.isErrMode with
            | false => rfl
            | true => have := (isErr_iff p).1 he; omega
          rw [h1, hr, this]; rfl
        rw [this]
        unfold resetPack
        conv => rhs; rw [← List.map_id s.global]
        apply List.map_congr_left
        intro p hp
        have := (H.pos p hp).2.1
        obtain ⟨a, b, c, d, e⟩ := p
        simp only at this
        subst this
        rfl
      · rw [if_neg hr]
        have : buildLocal s.global r = [] := by
          unfold buildLocal
          rw [List.filter_eq_nil_iff]
          intro p hp
          rw [(H.pos p hp).1]
          have : (0 == r) = false := by simpa using fun h : 0 = r => hr h.symm
          rw [this]; simp
        rw [this]; rfl
    have hb : buildGlobal W (fun r => resetPack (buildLocal s.global r)) = s.global := by
      unfold buildGlobal
      obtain ⟨w, rfl⟩ : ∃ w, W = w + 1 := ⟨W - 1, by omega⟩
      rw [List.range_succ_eq_map, List.flatMap_cons, hl, if_pos rfl, List.flatMap_map]
      have : (List.range w).flatMap (fun r => resetPack (buildLocal s.global (Nat.succ r))) = [] := by
        rw [List.flatMap_eq_nil_iff]
        intro r _
        rw [hl, if_neg (Nat.succ_ne_zero r)]
      rw [this, List.append_nil]
    refine ⟨_, rfl, ⟨⟨H.inv.tl, H.inv.dinv, H.inv.pid, H.inv.next⟩, H.pos, H.objs, H.owned, H.len⟩, ?_, by simp, ?_, rfl, hb⟩
    · refine ⟨by show TLInv smin s.tree (buildGlobal W _); rw [hb]; exact H.inv.tl, by show DInv _ _ _ (buildGlobal W _) _; rw [hb]; exact H.inv.dinv,
        by show ∀ p ∈ buildGlobal W _, _; rw [hb]; exact H.inv.pid, H.inv.next, ?_, by show ∀ p ∈ buildGlobal W _, _; rw [hb]; exact fun p hp => (H.pos p hp).2.1, ?_⟩
      · intro r hr p hp
        have hp' : p ∈ resetPack (buildLocal s.global r) := hp
        rw [hl] at hp'
        by_cases e : r = 0
        · rw [if_pos e] at hp'
          rw [(H.pos p hp').1, e]
        · rw [if_neg e] at hp'
          exact absurd hp' List.not_mem_nil
      · intro r hr
        show (s.owned r).Nodup ∧ ∀ id ∈ s.owned r, _
        rw [H.owned r]
        exact ⟨List.nodup_nil, fun id h => absurd h List.not_mem_nil⟩
    · show resetPack (buildLocal s.global 0) = s.global
      rw [hl, if_pos rfl]
  | cons c cs ih =>
    intro s H hc hN
    rw [List.length_cons] at hN
    obtain ⟨s1, a1, a2, a3, a4⟩ := addRoot_ok he hW H (hc c List.mem_cons_self) (by omega)
    obtain ⟨s2, b1, b2, b3, b4, b5⟩ := ih s1 a2 (fun c hc' => hc c (List.mem_cons_of_mem _ hc')) (by rw [a3]; omega)
    refine ⟨s2, ?_, b2, b3, ?_, b5⟩
    · show (addRoot env.lay s c).bind (fun s' => addRoots env.lay cs s') = _
      rw [a1]; exact b1
    · rw [b4, a4, List.append_assoc]; rfl

/-! ### Changes of the load values -/

theorem SchedOk.congr {α F : Type} [LinearOrder F] {env : SchedEnv α F} {smin : V3 Nat} {W : Nat} {s s' : Sched α} (H : SchedOk env smin W s)
    (ht : s'.tree = s.tree) (hn : s'.nextPid = s.nextPid) (hd : s'.data = s.data)
    (hk : ∀ r < W, (s'.locals r).map patchKey = (s.locals r).map patchKey) (hp : ∀ r < W, ∀ p ∈ s'.locals r, p.packNodeIndex = u64max)
    (ho : ∀ r < W, (s'.owned r).Nodup ∧ ∀ id ∈ s'.owned r, id ∈ (s'.locals r).map (·.idPatch)) : SchedOk env smin W s' := by
  have hG : (buildGlobal W s'.locals).map patchKey = (buildGlobal W s.locals).map patchKey := by
    unfold buildGlobal
    rw [List.map_flatMap, List.map_flatMap]
    apply List.flatMap_congr
    intro r hr
    exact hk r (List.mem_range.1 hr)
  have hP : ((buildGlobal W s.locals).map patchKey).Perm ((buildGlobal W s'.locals).map patchKey) := by rw [hG]
  have hmem : ∀ r < W, ∀ p ∈ s'.locals r, ∃ q ∈ s.locals r, patchKey q = patchKey p := by
    intro r hr p hp
    have := List.mem_map_of_mem (f := patchKey) hp
    rw [hk r hr] at this
    obtain ⟨q, q1, q2⟩ := List.mem_map.1 this
    exact ⟨q, q1, q2⟩
  refine ⟨by rw [ht]; exact H.tl.congrKey hP, by rw [hd]; exact H.dinv.congrKey hP, ?_, by rw [hn, ht]; exact H.next, ?_, ?_, ho⟩
  · intro p hp
    obtain ⟨r, hr, hp⟩ := List.mem_flatMap.1 hp
    obtain ⟨q, q1, q2⟩ := hmem r (List.mem_range.1 hr) p hp
    unfold patchKey at q2
    rw [Prod.mk.injEq] at q2
    rw [hn, ← q2.1]
    exact H.pid q (List.mem_flatMap.2 ⟨r, hr, q1⟩)
  · intro r hr p hp
    obtain ⟨q, q1, q2⟩ := hmem r hr p hp
    unfold patchKey at q2
    rw [Prod.mk.injEq, Prod.mk.injEq] at q2
    rw [← q2.2.1]
    exact H.loc r hr q q1
  · intro p hp'
    obtain ⟨r, hr, hp'⟩ := List.mem_flatMap.1 hp'
    exact hp r (List.mem_range.1 hr) p hp'

theorem updLoads_spec (f : Patch → Nat) (im : Nat → Nat) : ∀ (ids : List Nat) (l : List Patch), (l.map (·.idPatch)).Nodup → (∀ (i : Nat) p, l[i]? = some p → im p.idPatch = i) →
    ids.Nodup → (∀ id ∈ ids, id ∈ l.map (·.idPatch)) →
    ∃ l', updLoads f im ids l = .ok l' ∧ l' = l.map (fun p => if p.idPatch ∈ ids then { p with loadValue := f p } else p) := by
  intro ids
  induction ids with
  | nil => intro l _ _ _ _; exact ⟨l, rfl, by simp⟩
  | cons id ids ih =>
    intro l hnd him hn hin
    rw [List.nodup_cons] at hn
    obtain ⟨p, p1, p2⟩ := List.mem_map.1 (hin id List.mem_cons_self)
    obtain ⟨i, hi⟩ := List.mem_iff_getElem?.1 p1
    have hidx : im id = i := by rw [← p2]; exact him i p hi
    have hlt := (List.getElem?_eq_some_iff.1 hi).1
    have hids : (l.set i { p with loadValue := f p }).map (·.idPatch) = l.map (·.idPatch) := by
      apply List.ext_getElem?
      intro j
      rw [List.getElem?_map, List.getElem?_map]
      by_cases hj : i = j
      · subst hj
        rw [List.getElem?_set_self hlt, hi]; rfl
      · rw [List.getElem?_set_ne hj]
    obtain ⟨l', a, b⟩ := ih (l.set i { p with loadValue := f p }) (by rw [hids]; exact hnd) (by
        intro j q hq
        by_cases hj : i = j
        · subst hj
          rw [List.getElem?_set_self hlt, Option.some.injEq] at hq
          rw [← hq]
          exact him i p hi
        · rw [List.getElem?_set_ne hj] at hq
          exact him j q hq) hn.2 (fun x hx => by rw [hids]; exact hin x (List.mem_cons_of_mem _ hx))
    refine ⟨l', ?_, ?_⟩
    · simp only [updLoads, hidx, hi]
      exact a
    · rw [b]
      apply List.ext_getElem?
      intro j
      rw [List.getElem?_map, List.getElem?_map]
      by_cases hj : i = j
      · subst hj
        rw [List.getElem?_set_self hlt, hi]
        simp only [Option.map_some]
        rw [if_neg (show ({ p with loadValue := f p } : Patch).idPatch ∉ ids by show p.idPatch ∉ ids; rw [p2]; exact hn.1), if_pos (by rw [p2]; exact List.mem_cons_self)]
      · rw [List.getElem?_set_ne hj]
        cases hq : l[j]? with
        | none => rfl
        | some q =>
          simp only [Option.map_some]
          have hne : q.idPatch ≠ id := by
            intro e
            have h1 := him j q hq
            rw [e, hidx] at h1
            exact hj h1
          have : (q.idPatch ∈ id :: ids) ↔ q.idPatch ∈ ids := by
            rw [List.mem_cons]; exact ⟨fun h => h.resolve_left hne, Or.inr⟩
          simp only [this]

theorem buildGlobal_nodup {W : Nat} {locals : Nat → List Patch} (h : ((buildGlobal W locals).map (·.idPatch)).Nodup) {r : Nat} (hr : r < W) :
    ((locals r).map (·.idPatch)).Nodup := by
  have hs : (locals r).Sublist (buildGlobal W locals) := by
    unfold buildGlobal
    obtain ⟨a, b, hab⟩ := List.append_of_mem (List.mem_range.2 hr)
    rw [hab, List.flatMap_append, List.flatMap_cons]
    exact (List.sublist_append_left _ _).trans (List.sublist_append_right _ _)
  exact (hs.map _).nodup h

/-- Updating the load values gives each owned patch the value of the function and changes nothing else. -/
theorem updateLoads_ok {α F : Type} [LinearOrder F] {env : SchedEnv α F} {smin : V3 Nat} {W : Nat} {s : Sched α} (H : SchedOk env smin W s)
    (f : Nat → Patch → Nat) :
    ∃ s', updateLoads W f s = .ok s' ∧ SchedOk env smin W s' ∧ s'.fresh = true ∧ s'.tree = s.tree ∧ s'.data = s.data ∧ s'.owned = s.owned ∧
      ∀ r < W, s'.locals r = (s.locals r).map (fun p => if p.idPatch ∈ s.owned r then { p with loadValue := f r p } else p) := by
  have hnd : ∀ r < W, ((s.locals r).map (·.idPatch)).Nodup := fun r hr => buildGlobal_nodup H.dinv.owned.ids hr
  have hx : ∀ r < W, updLoads (f r) (gidx (s.locals r)) (s.owned r) (s.locals r) =
      .ok ((s.locals r).map (fun p => if p.idPatch ∈ s.owned r then { p with loadValue := f r p } else p)) := by
    intro r hr
    obtain ⟨l', a, b⟩ := updLoads_spec (f r) (gidx (s.locals r)) (s.owned r) (s.locals r) (hnd r hr) (fun i p hi => gidx_eq (hnd r hr) hi) (H.own r hr).1 (H.own r hr).2
    rw [a, b]
  have hall := allRanks_ok (fun r l => updLoads (f r) (gidx l) (s.owned r) l)
    (fun r => (s.locals r).map (fun p => if p.idPatch ∈ s.owned r then { p with loadValue := f r p } else p)) s.locals W hx
  have hl : ∀ r < W, (fun r => if r < W then (s.locals r).map (fun p => if p.idPatch ∈ s.owned r then { p with loadValue := f r p } else p) else s.locals r) r =
      (s.locals r).map (fun p => if p.idPatch ∈ s.owned r then { p with loadValue := f r p } else p) := fun r hr => if_pos hr
  have hmap : ∀ {β : Type} (g : Patch → β) (r : Nat), (∀ (p : Patch) k, g { p with loadValue := k } = g p) →
      ((s.locals r).map (fun p => if p.idPatch ∈ s.owned r then { p with loadValue := f r p } else p)).map g = (s.locals r).map g := by
    intro β g r hg
    rw [List.map_map]
    apply List.map_congr_left
    intro p _
    simp only [Function.comp]
    split
    · exact hg p _
    · rfl
  refine ⟨{ s with locals := fun r => if r < W then (s.locals r).map (fun p => if p.idPatch ∈ s.owned r then { p with loadValue := f r p } else p) else s.locals r, fresh := true }, by unfold updateLoads; rw [hall]; rfl, ?_, rfl, rfl, rfl, rfl, hl⟩
  refine H.congr rfl rfl rfl (fun r hr => ?_) (fun r hr p hp => ?_) (fun r hr => ⟨(H.own r hr).1, fun id hid => ?_⟩)
  · show List.map patchKey ((fun r => if r < W then _ else _) r) = _
    rw [hl r hr]
    exact hmap patchKey r (fun _ _ => rfl)
  · have hp' : p ∈ (fun r => if r < W then (s.locals r).map (fun p => if p.idPatch ∈ s.owned r then { p with loadValue := f r p } else p) else s.locals r) r := hp
    rw [hl r hr] at hp'
    have h2 := List.mem_map_of_mem (f := (·.packNodeIndex)) hp'
    rw [hmap (·.packNodeIndex) r (fun _ _ => rfl)] at h2
    obtain ⟨q, q1, q2⟩ := List.mem_map.1 h2
    rw [← q2]
    exact H.packs q (List.mem_flatMap.2 ⟨r, List.mem_range.2 hr, q1⟩)
  · show id ∈ List.map (fun p : Patch => p.idPatch) ((fun r => if r < W then _ else _) r)
    rw [hl r hr, hmap (·.idPatch) r (fun _ _ => rfl)]
    exact (H.own r hr).2 id hid

end Shamrock
