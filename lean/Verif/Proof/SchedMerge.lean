import Verif.Proof.SchedLoop
/-! The merges of the scheduler step. -/
namespace Shamrock

attribute [local irreducible] u64max getSplit

/-- The patches of the list that are not marked as merged away. -/
def live (g : List Patch) : List Patch := g.filter fun p => !p.isErrMode

def Patch.err (p : Patch) : Patch := { p with nodeOwnerId := 2 ^ 32 - 1 }

theorem err_isErr (p : Patch) : p.err.isErrMode = true := by unfold Patch.err Patch.isErrMode; rfl

theorem setErr_spec : ∀ (is : List Nat) (ps g : List Patch), is.Nodup → List.Forall₂ (fun (i : Nat) p => g[i]? = some p) is ps →
    ∃ g', setErr is g = .ok g' ∧ g'.length = g.length ∧ (∀ i : Nat, i ∉ is → g'[i]? = g[i]?) ∧ g'.map (·.idPatch) = g.map (·.idPatch) ∧
      (ps ++ g').Perm (ps.map Patch.err ++ g) := by
  intro is
  induction is with
  | nil =>
    intro ps g _ h
    cases h
    exact ⟨g, rfl, rfl, fun _ _ => rfl, rfl, List.Perm.refl _⟩
  | cons j is ih =>
    intro ps g hn h
    rw [List.nodup_cons] at hn
    cases h with
    | @cons _ p _ ps hp h =>
      have hj := (List.getElem?_eq_some_iff.1 hp).1
      have hne : ∀ i ∈ is, j ≠ i := fun i hi e => hn.1 (e ▸ hi)
      obtain ⟨g', a, b, c, d, e⟩ := ih ps (g.set j p.err) hn.2 (by
        refine List.forall₂_iff_get.2 ⟨h.length_eq, fun i h1 h2 => ?_⟩
        rw [List.getElem?_set_ne (hne _ (List.get_mem _ _))]
        exact List.Forall₂.get h h1 h2)
      refine ⟨g', by simp only [setErr, hp]; exact a, by rw [b, List.length_set], ?_, ?_, ?_⟩
      · intro i hi
        rw [List.mem_cons, not_or] at hi
        rw [c i hi.2, List.getElem?_set_ne (fun h => hi.1 h.symm)]
      · rw [d]
        apply List.ext_getElem?
        intro i
        rw [List.getElem?_map, List.getElem?_map]
        by_cases hi : j = i
        · subst hi
          rw [List.getElem?_set_self hj, hp]; rfl
        · rw [List.getElem?_set_ne hi]
      · show (p :: (ps ++ g')).Perm (p.err :: (ps.map Patch.err ++ g))
        refine (e.cons p).trans ?_
        refine (List.perm_middle.symm).trans ?_
        refine ((perm_set g j p p.err hp).append_left _).trans ?_
        exact List.perm_middle

theorem live_append (a b : List Patch) : live (a ++ b) = live a ++ live b := by unfold live; rw [List.filter_append]

theorem live_err (ps : List Patch) : live (ps.map Patch.err) = [] := by
  unfold live
  rw [List.filter_eq_nil_iff]
  intro p hp
  obtain ⟨q, _, rfl⟩ := List.mem_map.1 hp
  rw [err_isErr]; simp

theorem live_of {ps : List Patch} (h : ∀ p ∈ ps, p.isErrMode = false) : live ps = ps := by
  unfold live
  rw [List.filter_eq_self]
  intro p hp
  rw [h p hp]; rfl

theorem mem_live {g : List Patch} {p : Patch} : p ∈ live g ↔ p ∈ g ∧ p.isErrMode = false := by
  unfold live
  rw [List.mem_filter]
  cases p.isErrMode <;> simp

theorem isErr_iff (p : Patch) : p.isErrMode = true ↔ p.nodeOwnerId = 2 ^ 32 - 1 := by unfold Patch.isErrMode; simp

theorem mergePatch_ok {ps : List Patch} {c : PatchCoord} (h : ps.map (·.coord) = getSplit c) (hs : Splittable c) (hf : NotFull c) :
    ∃ p0 rest q, ps = p0 :: rest ∧ rest.length = 7 ∧ mergePatch ps = some q ∧ q.coord = c ∧ q.idPatch = p0.idPatch ∧ q.nodeOwnerId = p0.nodeOwnerId ∧ q.packNodeIndex = u64max ∧
      ((ps.map (·.loadValue)).sum < 2 ^ 64 → q.loadValue = (ps.map (·.loadValue)).sum) ∧ q.loadValue < 2 ^ 64 := by
  have hlen : ps.length = 8 := by
    have := congrArg List.length h
    rw [List.length_map, getSplit_length] at this
    exact this
  have hm := C35_merge_split c hs hf
  rw [← h] at hm
  match ps, hlen with
  | [p0, p1, p2, p3, p4, p5, p6, p7], _ =>
    simp only [List.map_cons, List.map_nil] at hm
    obtain ⟨L, hL⟩ : ∃ L, L = u64add (u64add (u64add (u64add (u64add (u64add (u64add p0.loadValue p1.loadValue)
                  p2.loadValue) p3.loadValue) p4.loadValue) p5.loadValue) p6.loadValue) p7.loadValue := ⟨_, rfl⟩
    have hq : mergePatch [p0, p1, p2, p3, p4, p5, p6, p7] = some { p0 with coord := c, packNodeIndex := u64max, loadValue := L } := by
      unfold mergePatch
      simp only [hm, Option.map_some]
      rw [hL]
    refine ⟨p0, [p1, p2, p3, p4, p5, p6, p7], _, rfl, rfl, hq, rfl, rfl, rfl, rfl, ?_, ?_⟩
    · show _ → L = _
      rw [hL]
      simp only [List.map_cons, List.map_nil, List.sum_cons, List.sum_nil, u64add]
      generalize p0.loadValue = a0
      generalize p1.loadValue = a1
      generalize p2.loadValue = a2
      generalize p3.loadValue = a3
      generalize p4.loadValue = a4
      generalize p5.loadValue = a5
      generalize p6.loadValue = a6
      generalize p7.loadValue = a7
      omega
    · show L < 2 ^ 64
      rw [hL]
      exact Nat.mod_lt _ (by decide)

end Shamrock
namespace Shamrock

attribute [local irreducible] u64max getSplit

/-- What holds of the scheduler while it merges patches. -/
structure MrgInv {α F : Type} [LinearOrder F] (env : SchedEnv α F) (smin : V3 Nat) (W : Nat) (im : Nat → Nat) (s : Sched α) : Prop where
  tl : TLInv smin s.tree (live s.global)
  dinv : DInv W env.lay (InPatch env.pos env.box) (live s.global) s.data
  pid : ∀ p ∈ live s.global, p.idPatch < s.nextPid
  next : s.nextPid ≤ s.tree.nextId
  im : ∀ p ∈ live s.global, s.global[im p.idPatch]? = some p

/-- The node can be merged: its children are leaves whose patches are on one rank. -/
def MrgReady {α : Type} (s : Sched α) (tid : Nat) : Prop :=
  ∃ n ps o, s.tree.tree tid = some n ∧ n.allLeafs = true ∧ List.Forall₂ (fun c p => ∃ k, s.tree.tree c = some k ∧ k.linked = p.idPatch) n.childs ps ∧
    ∀ p ∈ ps, p ∈ live s.global ∧ p.nodeOwnerId = o

theorem forall2_same_links {smin : V3 Nat} {t : PTree} {G : List Patch} (hnd : (G.map (·.idPatch)).Nodup) :
    ∀ (cs : List Nat) (ps qs : List Patch), List.Forall₂ (fun c p => ∃ k, t.tree c = some k ∧ k.linked = p.idPatch) cs ps →
    List.Forall₂ (fun c p => ∃ k, t.tree c = some k ∧ k.linked = p.idPatch) cs qs → (∀ p ∈ ps, p ∈ G) → (∀ q ∈ qs, q ∈ G) → ps = qs := by
  intro cs ps qs h
  induction h generalizing qs with
  | nil => intro h' _ _; cases h'; rfl
  | @cons c p cs ps hp _ ih =>
    intro h' h1 h2
    cases h' with
    | @cons _ q _ qs hq h' =>
      obtain ⟨k, k1, k2⟩ := hp
      obtain ⟨k', k1', k2'⟩ := hq
      rw [k1, Option.some.injEq] at k1'
      subst k1'
      have e : p = q := owned_inj hnd (h1 p List.mem_cons_self) (h2 q List.mem_cons_self) (by rw [← k2, k2'])
      rw [e, ih qs h' (fun x hx => h1 x (List.mem_cons_of_mem _ hx)) (fun x hx => h2 x (List.mem_cons_of_mem _ hx))]

theorem exists_rest {G ps : List Patch} (hG : G.Nodup) (hp : ps.Nodup) (h : ∀ p ∈ ps, p ∈ G) : ∃ R, G.Perm (ps ++ R) := by
  refine ⟨G.filter (fun x => !decide (x ∈ ps)), ?_⟩
  refine (List.filter_append_perm (fun x => decide (x ∈ ps)) G).symm.trans (List.Perm.append_right _ ?_)
  refine (List.perm_ext_iff_of_nodup (hG.filter _) hp).2 (fun x => ?_)
  rw [List.mem_filter, decide_eq_true_eq]
  exact ⟨fun h => h.2, fun hx => ⟨h x hx, hx⟩⟩

theorem forall2_mem_of {A B : Type} {r : A → B → Prop} {l : List A} {m : List B} (h : List.Forall₂ r l m) {b : B} (hb : b ∈ m) : ∃ a ∈ l, r a b := by
  induction h with
  | nil => cases hb
  | @cons a b' l m hab _ ih =>
    rcases List.mem_cons.1 hb with rfl | hb
    · exact ⟨a, List.mem_cons_self, hab⟩
    · obtain ⟨x, x1, x2⟩ := ih hb
      exact ⟨x, List.mem_cons_of_mem _ x1, x2⟩

theorem mergeOne_ok {α F : Type} [LinearOrder F] {env : SchedEnv α F} {smin : V3 Nat} (he : EnvOk env smin) {W : Nat} (hW : W < 2 ^ 31) {im : Nat → Nat} {s : Sched α}
    (H : MrgInv env smin W im s) {tid : Nat} (hr : MrgReady s tid) (hsz : ∀ v ∈ env.lay, (allObj W s.data).length * v < 2 ^ 32)
    (hbox : ∀ (c : PatchCoord) (ch : PatchCoord) (o : List (List α)), CoordOk smin c → Splittable c → ch ∈ getSplit c → InPatch env.pos env.box ch o → InPatch env.pos env.box c o) :
    ∃ s', mergeOne env.lay W im s tid = .ok s' ∧ MrgInv env smin W im s' ∧ s'.tree.nextId = s.tree.nextId ∧ (allObj W s'.data).Perm (allObj W s.data) ∧
      (∀ tid', tid' ≠ tid → MrgReady s tid' → MrgReady s' tid') ∧
      (((live s.global).map (·.loadValue)).sum < 2 ^ 64 → ((live s'.global).map (·.loadValue)).sum = ((live s.global).map (·.loadValue)).sum) ∧
      s'.locals = s.locals ∧ s'.owned = s.owned ∧ s'.fresh = s.fresh := by
  obtain ⟨n, ps, o, hx, ha, hlk, hps⟩ := hr
  obtain ⟨hne, hpos⟩ := he.lay
  obtain ⟨hnl, hch⟩ := (H.tl.tinv.flag tid n hx).1 ha
  have hnd := H.dinv.owned.ids
  have hGn : (live s.global).Nodup := List.Nodup.of_map _ hnd
  have hps1 : ∀ p ∈ ps, p ∈ live s.global := fun p hp => (hps p hp).1
  obtain ⟨ps', c1, c2, c3, c4⟩ := tl_children H.tl hx ha
  have epp : ps' = ps := forall2_same_links (smin := smin) hnd _ _ _ c1 hlk c2 hps1
  subst epp
  have hspl := H.tl.splits tid n hx hnl
  have hcok := H.tl.coords tid n hx
  obtain ⟨p0, rest, q, e1, e2, e3, e4, e5, e6, e7, e8, e9⟩ := mergePatch_ok c3 hspl hcok.notFull
  have hpn : ps'.Nodup := List.Nodup.of_map _ c4
  obtain ⟨R, hR⟩ := exists_rest hGn hpn hps1
  have hp0 : p0 ∈ ps' := by rw [e1]; exact List.mem_cons_self
  have ho : o < W := by
    have := (H.dinv.owned.owner p0 (hps1 p0 hp0)).1
    rw [(hps p0 hp0).2] at this
    exact this
  have hqo : q.nodeOwnerId = o := by rw [e6]; exact (hps p0 hp0).2
  -- indexes
  have hat : List.Forall₂ (fun (i : Nat) p => s.global[i]? = some p) (ps'.map (fun p => im p.idPatch)) ps' := by
    rw [List.forall₂_map_left_iff, List.forall₂_same]
    intro p hp
    exact H.im p (hps1 p hp)
  have himinj : ∀ p ∈ live s.global, ∀ p' ∈ live s.global, im p.idPatch = im p'.idPatch → p = p' := by
    intro p hp p' hp' e
    have h1 := H.im p hp
    rw [e, H.im p' hp', Option.some.injEq] at h1
    exact h1.symm
  have hin : (ps'.map (fun p => im p.idPatch)).Nodup := List.Nodup.map_on (fun a ha b hb e => himinj a (hps1 a ha) b (hps1 b hb) e) hpn
  have hlinks : linksOf s.tree n.childs = .ok (ps'.map (·.idPatch)) := linksOf_ok s.tree _ _ hlk
  -- the list
  have hi0 : s.global[im p0.idPatch]? = some p0 := H.im p0 (hps1 p0 hp0)
  have hlt0 := (List.getElem?_eq_some_iff.1 hi0).1
  have hrest : ∀ p ∈ rest, p ∈ ps' := fun p hp => by rw [e1]; exact List.mem_cons_of_mem _ hp
  have hinr : (im p0.idPatch :: rest.map (fun p => im p.idPatch)).Nodup := by
    have := hin
    rw [e1, List.map_cons] at this
    exact this
  rw [List.nodup_cons] at hinr
  obtain ⟨g', g1, g2, g3, g4, g5⟩ := setErr_spec (rest.map (fun p => im p.idPatch)) rest (s.global.set (im p0.idPatch) q) hinr.2 (by
    rw [List.forall₂_map_left_iff, List.forall₂_same]
    intro p hp
    rw [List.getElem?_set_ne (fun e => hinr.1 (by rw [e]; exact List.mem_map_of_mem (f := fun p : Patch => im p.idPatch) hp))]
    exact H.im p (hps1 p (hrest p hp)))
  have hnerr : ∀ p : Patch, p.nodeOwnerId < W → p.isErrMode = false := by
    intro p hp
    cases h : p.isErrMode with
    | false => rfl
    | true => rw [isErr_iff] at h; omega
  have hliveR : live rest = rest := live_of (fun p hp => (mem_live.1 (hps1 p (hrest p hp))).2)
  have hqlive : q.isErrMode = false := hnerr q (by omega)
  have hG' : (live g').Perm (q :: R) := by
    have h1 : (rest ++ live g').Perm (live (s.global.set (im p0.idPatch) q)) := by
      have : (live (rest ++ g')).Perm (live (rest.map Patch.err ++ s.global.set (im p0.idPatch) q)) := g5.filter _
      rw [live_append, live_append, hliveR, live_err, List.nil_append] at this
      exact this
    have h2 : (p0 :: live (s.global.set (im p0.idPatch) q)).Perm (q :: live s.global) := by
      have : (live (p0 :: s.global.set (im p0.idPatch) q)).Perm (live (q :: s.global)) := (perm_set s.global _ p0 q hi0).filter _
      have a1 : live (p0 :: s.global.set (im p0.idPatch) q) = p0 :: live (s.global.set (im p0.idPatch) q) := by
        unfold live; rw [List.filter_cons_of_pos]; rw [(mem_live.1 (hps1 p0 hp0)).2]; rfl
      have a2 : live (q :: s.global) = q :: live s.global := by
        unfold live; rw [List.filter_cons_of_pos]; rw [hqlive]; rfl
      rw [a1, a2] at this
      exact this
    have h3 : (p0 :: (rest ++ live g')).Perm (p0 :: (rest ++ (q :: R))) := by
      refine (h1.cons p0).trans (h2.trans ?_)
      refine ((hR.cons q)).trans ?_
      rw [e1]
      show (q :: (p0 :: (rest ++ R))).Perm _
      refine (List.Perm.swap _ _ _).trans (List.Perm.cons _ ?_)
      exact List.perm_middle.symm
    exact (List.perm_append_left_iff rest).1 ((List.perm_cons p0).1 h3)
  have hqi : q.idPatch ∈ ps'.map (·.idPatch) := by rw [e5]; exact List.mem_map_of_mem (f := (·.idPatch)) hp0
  obtain ⟨t1, t2, m1, m2, m3, m4, m5⟩ := tl_merge H.tl hR hnd hx ha hlk q e4 hqi hG'
  -- the data
  have hlay : ∀ p ∈ ps', ∃ l, mfind (s.data o) p.idPatch = some l := by
    intro p hp
    obtain ⟨-, l, hl⟩ := H.dinv.owned.owner p (hps1 p hp)
    rw [(hps p hp).2] at hl
    exact ⟨l, hl⟩
  haveI : Nonempty (PLayer α) := ⟨[]⟩
  choose! lf hlf using hlay
  have hobjs : (ps'.map lf).flatMap PLayer.objects = ps'.flatMap (patchObjs s.data) := by
    rw [List.flatMap_map]
    apply List.flatMap_congr
    intro p hp
    unfold patchObjs
    rw [(hps p hp).2, hlf p hp]
  have hlen : ((ps'.map lf).flatMap PLayer.objects).length ≤ (allObj W s.data).length := by
    rw [hobjs, (owned_objs H.dinv.owned).length_eq, ((hR.flatMap_right (patchObjs s.data))).length_eq, List.flatMap_append, List.length_append]
    omega
  obtain ⟨d', l', b1, b2, b3, b4, b5, b6⟩ := pdMerge_ok hne hpos (H.dinv.owned.maps o ho) (keys := ps'.map (·.idPatch)) (ls := ps'.map lf) (by
      rw [List.forall₂_map_left_iff, List.forall₂_map_right_iff, List.forall₂_same]
      intro p hp
      exact hlf p hp) (by
      intro l hl
      obtain ⟨p, hp, rfl⟩ := List.mem_map.1 hl
      exact H.dinv.good o ho _ _ (hlf p hp)) (fun v hv => lt_of_le_of_lt (Nat.mul_le_mul_right _ hlen) (hsz v hv)) (new := p0.idPatch) (by rw [← e5]; exact hqi)
  obtain ⟨data', hdd⟩ : ∃ data', data' = (fun r => if r < W then (if r = o then d' else s.data r) else s.data r) := ⟨_, rfl⟩
  have hdata : allRanks (fun r d => if p0.nodeOwnerId = r then pdMerge env.lay p0.idPatch (ps'.map (·.idPatch)) d else .ok d) W s.data = .ok data' := by
    rw [hdd]
    apply allRanks_ok
    intro r hr
    rw [(hps p0 hp0).2]
    by_cases e : r = o
    · rw [if_pos e, if_pos e.symm, e]; exact b1
    · rw [if_neg e, if_neg (fun h => e h.symm)]
  have hdo : data' o = d' := by rw [hdd]; show (if _ then _ else _) = _; rw [if_pos ho, if_pos rfl]
  have hRn : ∀ r ∈ R, q.idPatch ≠ r.idPatch := by
    have := (hR.map (·.idPatch)).nodup_iff.1 hnd
    rw [List.map_append, List.nodup_append] at this
    exact fun r hr e => this.2.2 _ hqi _ (List.mem_map_of_mem (f := (·.idPatch)) hr) e
  have hinq : ∀ x ∈ l'.objects, InPatch env.pos env.box q.coord x := by
    intro x hx'
    rw [b6] at hx'
    obtain ⟨l, hl, hxl⟩ := List.mem_flatMap.1 hx'
    obtain ⟨p, hp, rfl⟩ := List.mem_map.1 hl
    have hpl : InPatch env.pos env.box p.coord x := H.dinv.place p (hps1 p hp) (lf p) (by rw [(hps p hp).2]; exact hlf p hp) x hxl
    have hpc : p.coord ∈ getSplit n.coord := by rw [← c3]; exact List.mem_map_of_mem (f := (·.coord)) hp
    rw [e4]
    exact hbox n.coord p.coord x hcok hspl hpc hpl
  obtain ⟨D1, D2⟩ := (H.dinv.perm hR).replace (B := [q]) (data' := data') o ho (fun p hp => (hps p hp).2) (fun p hp => by rw [List.mem_singleton.1 hp]; exact hqo)
    (by simp) (fun p hp r hr => by rw [List.mem_singleton.1 hp]; exact hRn r hr) (by rw [hdo]; exact b2)
    (fun id hid => by
      rw [hdo]
      exact b3 id (fun e => hid (by rw [List.map_cons, List.map_nil, List.mem_singleton, e5]; exact e)))
    (fun p hp => by
      rw [List.mem_singleton.1 hp, hdo, e5]
      exact ⟨l', b4, b5, hinq⟩)
    (fun r hr hne' => by rw [hdd]; show (if _ then _ else _) = _; rw [if_pos hr, if_neg hne'])
  have D2 := D2 (by
    rw [← hobjs, ← b6, List.flatMap_singleton]
    unfold patchObjs
    rw [hqo, hdo, e5, b4])
  have hmemR : ∀ r ∈ R, r ∈ live s.global ∧ r ∉ ps' := by
    intro r hr
    refine ⟨hR.mem_iff.2 (List.mem_append_right _ hr), fun h => ?_⟩
    have := hR.nodup_iff.1 hGn
    rw [List.nodup_append] at this
    exact this.2.2 r h r hr rfl
  have hkeep : ∀ r ∈ R, g'[im r.idPatch]? = some r := by
    intro r hr
    obtain ⟨h1, h2⟩ := hmemR r hr
    rw [g3 _ (fun hin => ?_), List.getElem?_set_ne (fun e => ?_)]
    · exact H.im r h1
    · exact h2 (by rw [← himinj p0 (hps1 p0 hp0) r h1 e]; exact hp0)
    · obtain ⟨p, hp, e⟩ := List.mem_map.1 hin
      exact h2 (by rw [← himinj p (hps1 p (hrest p hp)) r h1 e]; exact hrest p hp)
  refine ⟨{ s with tree := t2, global := g', data := data' }, ?_, ⟨m3, D1.perm hG'.symm, ?_, ?_, ?_⟩, m4, D2, ?_, ?_, rfl, rfl, rfl⟩
  · unfold mergeOne
    rw [hx]
    simp only
    rw [hlinks]
    simp only [Res.bind]
    have ek : ps'.map (·.idPatch) = p0.idPatch :: rest.map (·.idPatch) := by rw [e1]; rfl
    have hlm : listMerge ((ps'.map (·.idPatch)).map im) s.global = .ok g' := by
      unfold listMerge
      rw [List.map_map]
      have : patchesAt s.global (ps'.map (im ∘ fun x => x.idPatch)) = .ok ps' := patchesAt_ok _ _ _ hat
      rw [this]
      simp only [Res.bind]
      rw [e3, e1]
      simp only [List.map_cons]
      exact g1
    rw [hlm, m1]
    simp only
    rw [ek] at hdata ⊢
    simp only
    rw [hi0]
    simp only
    rw [hdata]
    simp only
    rw [← e5, m2]
  · intro p hp
    rcases List.mem_cons.1 (hG'.mem_iff.1 hp) with rfl | hp
    · rw [e5]; exact H.pid p0 (hps1 p0 hp0)
    · exact H.pid p (hmemR p hp).1
  · show s.nextPid ≤ t2.nextId
    rw [m4]; exact H.next
  · intro p hp
    show g'[im p.idPatch]? = some p
    rcases List.mem_cons.1 (hG'.mem_iff.1 hp) with rfl | hp
    · rw [e5, g3 _ hinr.1, List.getElem?_set_self hlt0]
    · exact hkeep p hp
  · rintro tid' hne' ⟨n', ps2, o2, hx2, ha2, hlk2, hps2⟩
    obtain ⟨hnl2, hch2⟩ := (H.tl.tinv.flag tid' n' hx2).1 ha2
    have htc : tid' ∉ n.childs := by
      intro h
      obtain ⟨k, k1, k2⟩ := hch tid' h
      rw [hx2, Option.some.injEq] at k1
      subst k1
      rw [hnl2] at k2; cases k2
    obtain ⟨b, hb⟩ := m5 tid' n' hne' htc hx2
    have hcc : ∀ c ∈ n'.childs, ∀ k, s.tree.tree c = some k → ∃ b, t2.tree c = some { k with allLeafs := b } := by
      intro c hc k hk
      refine m5 c k ?_ ?_ hk
      · rintro rfl
        obtain ⟨k', k1, k2⟩ := hch2 c hc
        rw [hx, Option.some.injEq] at k1
        subst k1
        rw [hnl] at k2; cases k2
      · intro hc'
        obtain ⟨i, hi⟩ := List.mem_iff_getElem?.1 hc
        obtain ⟨j, hj⟩ := List.mem_iff_getElem?.1 hc'
        obtain ⟨k1, a1, a2, -⟩ := H.tl.tinv.down tid' n' hx2 hnl2 i c hi
        obtain ⟨k2, b1, b2, -⟩ := H.tl.tinv.down tid n hx hnl j c hj
        rw [a1, Option.some.injEq] at b1
        subst b1
        exact hne' (a2.symm.trans b2)
    have hbt : b = true := by
      have := (m3.tinv.flag tid' _ hb).2 ⟨hnl2, fun c hc => by
        obtain ⟨k, k1, k2⟩ := hch2 c hc
        obtain ⟨b', hb'⟩ := hcc c hc k k1
        exact ⟨_, hb', k2⟩⟩
      exact this
    refine ⟨_, ps2, o2, hb, hbt, ?_, ?_⟩
    · refine List.forall₂_iff_get.2 ⟨hlk2.length_eq, fun i h1 h2 => ?_⟩
      obtain ⟨k, k1, k2⟩ := List.Forall₂.get hlk2 h1 h2
      obtain ⟨b', hb'⟩ := hcc _ (List.get_mem n'.childs ⟨i, h1⟩) k k1
      exact ⟨_, hb', k2⟩
    · intro p hp
      obtain ⟨p1, p2⟩ := hps2 p hp
      refine ⟨?_, p2⟩
      rcases List.mem_append.1 (hR.mem_iff.1 p1) with h | h
      · exfalso
        obtain ⟨c, hc, k, k1, k2⟩ := forall2_mem_of hlk2 hp
        obtain ⟨c', hc', k', k1', k2'⟩ := forall2_mem_of hlk h
        obtain ⟨kk, kk1, kk2⟩ := hch2 c hc
        obtain ⟨kk', kk1', kk2'⟩ := hch c' hc'
        rw [k1, Option.some.injEq] at kk1
        subst kk1
        rw [k1', Option.some.injEq] at kk1'
        subst kk1'
        have : c = c' := H.tl.inj c c' k k' k1 k1' kk2 kk2' (by rw [k2, k2'])
        subst this
        obtain ⟨i, hi⟩ := List.mem_iff_getElem?.1 hc
        obtain ⟨j, hj⟩ := List.mem_iff_getElem?.1 hc'
        obtain ⟨k1, a1, a2, -⟩ := H.tl.tinv.down tid' n' hx2 hnl2 i c hi
        obtain ⟨k2, b1, b2, -⟩ := H.tl.tinv.down tid n hx hnl j c hj
        rw [a1, Option.some.injEq] at b1
        subst b1
        exact hne' (a2.symm.trans b2)
      · exact hG'.mem_iff.2 (List.mem_cons_of_mem _ h)
  · intro hs
    show ((live g').map (·.loadValue)).sum = _
    have e1' := (hR.map (·.loadValue)).sum_eq
    have e2' := (hG'.map (·.loadValue)).sum_eq
    rw [List.map_append, List.sum_append] at e1'
    rw [List.map_cons, List.sum_cons] at e2'
    have := e8 (by omega)
    rw [e2', e1', this]

/-- All the merges of a step. -/
theorem mergePatches_ok {α F : Type} [LinearOrder F] {env : SchedEnv α F} {smin : V3 Nat} (he : EnvOk env smin) {W : Nat} (hW : W < 2 ^ 31) {im : Nat → Nat}
    (hbox : ∀ (c : PatchCoord) (ch : PatchCoord) (o : List (List α)), CoordOk smin c → Splittable c → ch ∈ getSplit c → InPatch env.pos env.box ch o → InPatch env.pos env.box c o) :
    ∀ (mrq : List Nat) (s : Sched α), MrgInv env smin W im s → mrq.Nodup → (∀ tid ∈ mrq, MrgReady s tid) →
    (∀ v ∈ env.lay, (allObj W s.data).length * v < 2 ^ 32) →
    ∃ s', mergePatches env.lay W im mrq s = .ok s' ∧ MrgInv env smin W im s' ∧ s'.tree.nextId = s.tree.nextId ∧ (allObj W s'.data).Perm (allObj W s.data) ∧
      (((live s.global).map (·.loadValue)).sum < 2 ^ 64 → ((live s'.global).map (·.loadValue)).sum = ((live s.global).map (·.loadValue)).sum) ∧
      s'.locals = s.locals ∧ s'.owned = s.owned ∧ s'.fresh = s.fresh := by
  intro mrq
  induction mrq with
  | nil => intro s H _ _ _; exact ⟨s, rfl, H, rfl, List.Perm.refl _, fun _ => rfl, rfl, rfl, rfl⟩
  | cons tid mrq ih =>
    intro s H hn hr hsz
    rw [List.nodup_cons] at hn
    obtain ⟨s1, a1, a2, a3, a4, a5, a6, a7, a8, a9⟩ := mergeOne_ok he hW H (hr tid List.mem_cons_self) hsz hbox
    obtain ⟨s2, b1, b2, b3, b4, b6, b7, b8, b9⟩ := ih s1 a2 hn.2 (fun t ht => a5 t (fun e => hn.1 (e ▸ ht)) (hr t (List.mem_cons_of_mem _ ht)))
      (by rw [a4.length_eq]; exact hsz)
    refine ⟨s2, by simp only [mergePatches, a1, Res.bind, b1], b2, b3.trans a3, b4.trans a4, fun h => ?_, b7.trans a7, b8.trans a8, b9.trans a9⟩
    have e := a6 h
    rw [← e]
    exact b6 (by rw [e]; exact h)

end Shamrock
