import Verif.Proof.SchedMerge
/-! The part of the scheduler step before the load balancing. -/
namespace Shamrock

attribute [local irreducible] u64max getSplit

/-- The load values do not matter for the invariant. -/
theorem TLInv.reload {smin : V3 Nat} {t t' : PTree} {G : List Patch} (H : TLInv smin t G) (hs : SameShapeT t t')
    (h : ∀ x n, t.tree x = some n → ∃ l, t'.tree x = some { n with load := l }) : TLInv smin t' G := by
  have hb : ∀ x n, t'.tree x = some n → ∃ o l, t.tree x = some o ∧ n = { o with load := l } := by
    intro x n hx
    obtain ⟨o, _, _, ho, _⟩ := hs.back hx
    obtain ⟨l, hl⟩ := h x o ho
    rw [hx, Option.some.injEq] at hl
    exact ⟨o, l, ho, hl⟩
  refine ⟨hs.inv H.tinv, TLev.sameShape hs H.lev, ?_, ?_, ?_, ?_, ?_, ?_⟩
  · intro x n hx
    obtain ⟨o, l, ho, rfl⟩ := hb x n hx
    exact H.coords x o ho
  · intro x n hx hl
    obtain ⟨o, l, ho, rfl⟩ := hb x n hx
    exact H.splits x o ho hl
  · intro x n hx hl
    obtain ⟨o, l, ho, rfl⟩ := hb x n hx
    exact H.inner x o ho hl
  · intro x n hx hl
    obtain ⟨o, l, ho, rfl⟩ := hb x n hx
    exact H.leafP x o ho hl
  · intro p hp
    obtain ⟨x, n, n1, n2, n3⟩ := H.patchL p hp
    obtain ⟨l, hl⟩ := h x n n1
    exact ⟨x, _, hl, n2, n3⟩
  · intro x y n m hx hy h1 h2 h3
    obtain ⟨o, l, ho, rfl⟩ := hb x n hx
    obtain ⟨o', l', ho', rfl⟩ := hb y m hy
    exact H.inj x y o o' ho ho' h1 h2 h3

/-- The reduction of the load values, on a state of the scheduler: every leaf has the load of its patch, the invariant is kept. -/
theorem tl_reduction {smin : V3 Nat} {t : PTree} {G : List Patch} (H : TLInv smin t G) (hnd : (G.map (·.idPatch)).Nodup) (hpid : ∀ p ∈ G, p.idPatch < 2 ^ 32)
    (hload : (G.map (·.loadValue)).sum < 2 ^ 64) (ls ps : List Nat) (h1 : Enumerates ls t.leafKey) (h2 : Enumerates ps t.polk) :
    Linked t (loadsOf G) ∧ ∃ t', t.partialReduction (loadsOf G) ls ps = .ok t' ∧ TLInv smin t' G ∧ t'.leafKey = t.leafKey ∧ t'.polk = t.polk ∧ t'.nextId = t.nextId ∧
      (∀ x n, t'.tree x = some n → n.isLeaf = true → ∃ p ∈ G, p.idPatch = n.linked ∧ p.coord = n.coord ∧ n.load = p.loadValue) ∧
      (∀ x n, t.tree x = some n → ∃ l, t'.tree x = some { n with load := l }) := by
  have hub := u64max_big
  have hL : Linked t (loadsOf G) := by
    refine ⟨fun x n hx hl => ?_, H.inner⟩
    obtain ⟨p, p1, p2, p3⟩ := H.leafP x n hx hl
    have := hpid p p1
    refine ⟨by rw [← p2]; omega, p.loadValue, by rw [← p2]; exact loadsOf_eq hnd p1, ?_⟩
    exact lt_of_le_of_lt (le_sum_of_mem (List.mem_map_of_mem (f := (·.loadValue)) p1)) hload
  refine ⟨hL, ?_⟩
  obtain ⟨t', e, e1, e2, e3, e4, e5, e6, e7⟩ := load_reduction_inv t H.tinv (loadsOf G) hL ls ps h1 h2
  have hall : ∀ x n, t.tree x = some n → ∃ l, t'.tree x = some { n with load := l } := by
    intro x n hx
    by_cases hl : n.isLeaf = true
    · obtain ⟨l, _, hl⟩ := e5 x n hx hl
      exact ⟨l, hl⟩
    · by_cases hp : t.polk x = true
      · exact ⟨_, e6 x n hx hp⟩
      · refine ⟨n.load, ?_⟩
        rw [e7 x ?_ (by simpa using hp)]
        · exact hx
        · cases hk : t.leafKey x with
          | false => rfl
          | true =>
            obtain ⟨m, m1, m2⟩ := (H.tinv.leaf x).1 hk
            rw [hx, Option.some.injEq] at m1
            subst m1
            exact absurd m2 hl
  have hs : SameShapeT t t' := by
    refine ⟨e1, e2, e3, e4, fun x => ⟨fun n hn => ?_, fun hn => ?_⟩⟩
    · obtain ⟨l, hl⟩ := hall x n hn
      exact ⟨l, n.linked, hl⟩
    · rw [e7 x ?_ ?_]
      · exact hn
      · cases hk : t.leafKey x with
        | false => rfl
        | true =>
          obtain ⟨m, m1, _⟩ := (H.tinv.leaf x).1 hk
          rw [hn] at m1; cases m1
      · cases hk : t.polk x with
        | false => rfl
        | true =>
          obtain ⟨m, m1, _⟩ := (H.tinv.polk x).1 hk
          rw [hn] at m1; cases m1
  have H' := H.reload hs hall
  refine ⟨t', e, H', e1, e2, e4, ?_, hall⟩
  intro x n hx hl
  obtain ⟨o, _, _, ho, hno⟩ := hs.back hx
  have hol : o.isLeaf = true := by rw [hno] at hl; exact hl
  obtain ⟨l, l1, l2⟩ := e5 x o ho hol
  rw [hx, Option.some.injEq] at l2
  subst l2
  obtain ⟨p, p1, p2, p3⟩ := H.leafP x o ho hol
  refine ⟨p, p1, p2, p3, ?_⟩
  have := loadsOf_eq hnd p1
  rw [p2, l1, Option.some.injEq] at this
  exact this

/-- What a scheduler satisfies between two steps. The list of the patches is the concatenation of the local lists. -/
structure SchedOk {α F : Type} [LinearOrder F] (env : SchedEnv α F) (smin : V3 Nat) (W : Nat) (s : Sched α) : Prop where
  tl : TLInv smin s.tree (buildGlobal W s.locals)
  dinv : DInv W env.lay (InPatch env.pos env.box) (buildGlobal W s.locals) s.data
  pid : ∀ p ∈ buildGlobal W s.locals, p.idPatch < s.nextPid
  next : s.nextPid ≤ s.tree.nextId
  loc : ∀ r < W, ∀ p ∈ s.locals r, p.nodeOwnerId = r
  packs : ∀ p ∈ buildGlobal W s.locals, p.packNodeIndex = u64max
  own : ∀ r < W, (s.owned r).Nodup ∧ ∀ id ∈ s.owned r, id ∈ (s.locals r).map (·.idPatch)

/-- What the load balancing and the merges need for the node `tid`: its children are leaves, the patches of all but the first are packed with the
patch of the first. -/
def PreReady {α : Type} (s : Sched α) (im : Nat → Nat) (tid : Nat) : Prop :=
  ∃ n p0 rest, s.tree.tree tid = some n ∧ n.allLeafs = true ∧
    List.Forall₂ (fun c (p : Patch) => ∃ k, s.tree.tree c = some k ∧ k.linked = p.idPatch) n.childs (p0 :: rest) ∧
    (∀ p ∈ p0 :: rest, p ∈ s.global) ∧ ∀ p ∈ rest, p.packNodeIndex = im p0.idPatch

/-- What holds after the first part of the step. -/
structure PreOk {α F : Type} [LinearOrder F] (env : SchedEnv α F) (smin : V3 Nat) (W : Nat) (s s1 : Sched α) (srq mrq : List Nat) (im : Nat → Nat) : Prop where
  inv : SplInv env smin W s1
  list : PatchListOk W s1.global
  objs : (allObj W s1.data).Perm (allObj W s.data)
  idx : ∀ (i : Nat) p, s1.global[i]? = some p → im p.idPatch = i
  nodup : mrq.Nodup
  ready : ∀ tid ∈ mrq, PreReady s1 im tid
  next : s1.tree.nextId = s.tree.nextId + 8 * srq.length
  sum : (s1.global.map (·.loadValue)).sum ≤ ((buildGlobal W s.locals).map (·.loadValue)).sum
  len : s1.global.length = (buildGlobal W s.locals).length + 7 * srq.length
  fresh : s1.fresh = true
  finer : Finer W s1.data s.data
  count : srq.length ≤ ((buildGlobal W s.locals).filter fun p => decide (env.critSplit < p.loadValue)).length

/-- The hypotheses on one step. -/
structure StepOk {α F : Type} [LinearOrder F] (env : SchedEnv α F) (W : Nat) (e : StepEnv) (s : Sched α) : Prop where
  fresh : s.fresh = true
  ne : buildGlobal W s.locals ≠ []
  load : ((buildGlobal W s.locals).map (·.loadValue)).sum < 2 ^ 64
  ls : Enumerates e.ls s.tree.leafKey ∧ e.ls.Nodup
  ps : Enumerates e.ps s.tree.polk ∧ e.ps.Nodup
  iterS : ∀ l, (e.iterS l).Perm l
  iterM : ∀ l, (e.iterM l).Perm l
  iterO : ∀ r l, (e.iterO r l).Perm l
  packOrder : ∀ n, (e.packOrder n).Perm (List.range n)
  split : ∀ p ∈ buildGlobal W s.locals, env.critSplit < p.loadValue → Splittable p.coord
  ids : s.tree.nextId + 8 * ((buildGlobal W s.locals).filter fun p => decide (env.critSplit < p.loadValue)).length ≤ 2 ^ 32
  crit : env.critMerge ≤ env.critSplit
  size : ∀ v ∈ env.lay, (allObj W s.data).length * v < 2 ^ 32

theorem sum_le_of_subset {G ps : List Patch} (hG : G.Nodup) (hp : ps.Nodup) (h : ∀ p ∈ ps, p ∈ G) (f : Patch → Nat) : (ps.map f).sum ≤ (G.map f).sum := by
  obtain ⟨R, hR⟩ := exists_rest hG hp h
  rw [(hR.map f).sum_nat, List.map_append, List.sum_append]
  omega


theorem step_pre {α F : Type} [LinearOrder F] {env : SchedEnv α F} {smin : V3 Nat} (he : EnvOk env smin) {W : Nat} {e : StepEnv} {s : Sched α}
    (H : SchedOk env smin W s) (h : StepOk env W e s) (doSM : Bool) :
    ∃ s1 srq mrq im, schedPre env W e doSM s = .ok (s1, srq, mrq, im) ∧ PreOk env smin W s s1 srq mrq im ∧ (doSM = false → srq = [] ∧ mrq = []) := by
  obtain ⟨G, hG⟩ : ∃ G, G = buildGlobal W s.locals := ⟨_, rfl⟩
  have hub := u64max_big
  have hnd : (G.map (·.idPatch)).Nodup := by rw [hG]; exact H.dinv.owned.ids
  have hGnd : G.Nodup := List.Nodup.of_map _ hnd
  have hbound := H.tl.tinv.bound
  have hnext := H.next
  have hpid : ∀ p ∈ G, p.idPatch < 2 ^ 32 := fun p hp => by
    have := H.pid p (by rw [← hG]; exact hp)
    omega
  have hlenG : ∀ (g : List Patch) (N : Nat), (g.map (·.idPatch)).Nodup → (∀ p ∈ g, p.idPatch < N) → g.length ≤ N := by
    intro g N h1 h2
    have := nodup_length_le (g.map (·.idPatch)) N h1 (fun x hx => by
      obtain ⟨p, hp, rfl⟩ := List.mem_map.1 hx
      exact h2 p hp)
    rwa [List.length_map] at this
  cases hsm : doSM with
  | false =>
    refine ⟨{ s with global := G }, [], [], gidx G, ?_, ?_, fun _ => ⟨rfl, rfl⟩⟩
    · unfold schedPre
      rw [if_neg (by rw [h.fresh]; simp), ← hG]
      rfl
    · refine ⟨⟨by rw [hG]; exact H.tl, by rw [hG]; exact H.dinv, by rw [hG]; exact H.pid, H.next⟩, ⟨by rw [hG]; exact h.ne, by rw [hG]; exact h.load, ?_, ?_, ?_⟩, List.Perm.refl _, fun i p hi => gidx_eq hnd hi, List.nodup_nil,
        fun tid ht => absurd ht List.not_mem_nil, by simp, by rw [← hG], by rw [← hG]; simp, h.fresh, Finer.refl _ _, Nat.zero_le _⟩
      · have := hlenG G _ hnd hpid
        show G.length < 2 ^ 64
        omega
      · intro p hp
        exact (H.dinv.owned.owner p (by rw [← hG]; exact hp)).1
      · intro i p hi hne
        exact absurd (H.packs p (by rw [← hG]; exact List.mem_of_getElem? hi)) hne
  | true =>
    obtain ⟨hLk, t1, r0, r1, r2, r3, r4, r5, r6⟩ := tl_reduction H.tl (by rw [← hG]; exact hnd) (by rw [← hG]; exact hpid) h.load e.ls e.ps h.ls.1 h.ps.1
    rw [← hG] at hLk r0 r1 r5
    obtain ⟨srq, hsrq⟩ : ∃ l, l = e.iterS (e.ls.filter fun x => t1.splitRequest env.critSplit x) := ⟨_, rfl⟩
    obtain ⟨mrq, hmrq⟩ : ∃ l, l = e.iterM (e.ps.filter fun x => t1.mergeRequest env.critMerge x) := ⟨_, rfl⟩
    have hsn : srq.Nodup := by rw [hsrq]; exact (h.iterS _).nodup_iff.2 (h.ls.2.filter _)
    have hmn : mrq.Nodup := by rw [hmrq]; exact (h.iterM _).nodup_iff.2 (h.ps.2.filter _)
    have hsm : ∀ x, x ∈ srq ↔ t1.splitRequest env.critSplit x = true := by
      intro x
      rw [hsrq, (h.iterS _).mem_iff, List.mem_filter]
      refine ⟨fun h => h.2, fun hx => ⟨?_, hx⟩⟩
      unfold PTree.splitRequest at hx
      rw [Bool.and_eq_true, r2] at hx
      exact (h.ls.1 x).2 hx.1
    have hmm : ∀ x, x ∈ mrq → t1.mergeRequest env.critMerge x = true := by
      intro x hx
      rw [hmrq, (h.iterM _).mem_iff, List.mem_filter] at hx
      exact hx.2
    -- the nodes to split
    have hsq : ∀ x ∈ srq, ∃ n, t1.tree x = some n ∧ n.isLeaf = true ∧ ∃ p ∈ G, p.idPatch = n.linked ∧ p.coord = n.coord ∧ env.critSplit < p.loadValue := by
      intro x hx
      have := (hsm x).1 hx
      unfold PTree.splitRequest at this
      rw [Bool.and_eq_true] at this
      obtain ⟨n, n1, n2⟩ := (r1.tinv.leaf x).1 this.1
      have h2 := this.2
      rw [n1] at h2
      obtain ⟨p, p1, p2, p3, p4⟩ := r5 x n n1 n2
      exact ⟨n, n1, n2, p, p1, p2, p3, by rw [← p4]; exact of_decide_eq_true h2⟩
    have hcount : srq.length ≤ (G.filter fun p => decide (env.critSplit < p.loadValue)).length := by
      have hx : ∀ x, ∃ p : Patch, x ∈ srq → ∃ n, t1.tree x = some n ∧ n.isLeaf = true ∧ p ∈ G ∧ p.idPatch = n.linked ∧ p.coord = n.coord ∧ env.critSplit < p.loadValue := by
        intro x
        by_cases hx : x ∈ srq
        · obtain ⟨n, n1, n2, p, p1, p2⟩ := hsq x hx
          exact ⟨p, fun _ => ⟨n, n1, n2, p1, p2⟩⟩
        · exact ⟨⟨0, 0, 0, ⟨⟨0, 0, 0⟩, ⟨0, 0, 0⟩⟩, 0⟩, fun h => absurd h hx⟩
      choose f hf using hx
      have hinj : (srq.map f).Nodup := by
        refine List.Nodup.map_on (fun a ha b hb hab => ?_) hsn
        obtain ⟨n, n1, n2, n3, n4, -⟩ := hf a ha
        obtain ⟨m, m1, m2, m3, m4, -⟩ := hf b hb
        exact r1.inj a b n m n1 m1 n2 m2 (by rw [← n4, ← m4, hab])
      have := (List.subperm_of_subset hinj (l₂ := G.filter fun p => decide (env.critSplit < p.loadValue)) (fun p hp => by
        obtain ⟨x, hx, rfl⟩ := List.mem_map.1 hp
        obtain ⟨n, n1, n2, n3, n4, n5, n6⟩ := hf x hx
        exact List.mem_filter.2 ⟨n3, decide_eq_true n6⟩)).length_le
      rwa [List.length_map] at this
    have hids := h.ids
    rw [← hG] at hids
    have hN : t1.nextId + 8 * srq.length ≤ 2 ^ 32 := by rw [r4]; omega
    have S0 : SplInv env smin W ({ s with tree := t1, global := G } : Sched α) :=
      ⟨r1, by rw [hG]; exact H.dinv, fun p hp => H.pid p (by rw [← hG]; exact hp), by show s.nextPid ≤ t1.nextId; rw [r4]; exact H.next⟩
    obtain ⟨s1, b1, b2, b3, b4, b5, b6, b7, b8, b9, b10, b11, b12, b13⟩ := splitPatches_ok he (gidx G) e.junk srq ({ s with tree := t1, global := G } : Sched α) S0 hsn (by
      intro x hx
      obtain ⟨n, n1, n2, p, p1, p2, p3, p4⟩ := hsq x hx
      obtain ⟨i, hi⟩ := List.mem_iff_getElem?.1 p1
      refine ⟨n, n1, n2, ?_, p, ?_, p2⟩
      · rw [← p3]
        exact h.split p (by rw [← hG]; exact p1) p4
      · show G[gidx G n.linked]? = some p
        rw [← p2, gidx_eq hnd hi]
        exact hi) hN
    have hnd1 : (s1.global.map (·.idPatch)).Nodup := b2.dinv.owned.ids
    have hg1nd : s1.global.Nodup := List.Nodup.of_map _ hnd1
    have hpack1 : ∀ p ∈ s1.global, p.packNodeIndex = u64max := b9 (fun p hp => H.packs p (by rw [← hG]; exact hp))
    have hpid1 : ∀ p ∈ s1.global, p.idPatch < 2 ^ 32 := fun p hp => by
      have h1 := b2.pid p hp
      have h2 := b2.next
      have h3 := b2.tl.tinv.bound
      omega
    -- the nodes to merge
    have hmr : ∀ x, ∃ nps : PTNode × List Patch, x ∈ mrq → s1.tree.tree x = some nps.1 ∧ nps.1.allLeafs = true ∧
        List.Forall₂ (fun c (p : Patch) => ∃ k, s1.tree.tree c = some k ∧ k.linked = p.idPatch) nps.1.childs nps.2 ∧ (∀ p ∈ nps.2, p ∈ s1.global) ∧
        (nps.2.map (·.idPatch)).Nodup ∧ nps.2.length = 8 := by
      intro x
      by_cases hx : x ∈ mrq
      · have hm := hmm x hx
        have hm' := hm
        unfold PTree.mergeRequest at hm'
        rw [Bool.and_eq_true] at hm'
        obtain ⟨n, n1, n2⟩ := (r1.tinv.polk x).1 hm'.1
        obtain ⟨n3, n4⟩ := (r1.tinv.flag x n n1).1 n2
        obtain ⟨qs, q1, q2, q3, q4⟩ := tl_children r1 n1 n2
        have hsum : (n.childs.map t1.loadOf).sum < 2 ^ 64 := by
          have hq : n.childs.map t1.loadOf = qs.map (·.loadValue) := by
            have hh : ∀ (cs : List Nat) (qs : List Patch), (∀ c ∈ cs, ∃ k, t1.tree c = some k ∧ k.isLeaf = true) →
                List.Forall₂ (fun c (p : Patch) => ∃ k, t1.tree c = some k ∧ k.linked = p.idPatch) cs qs → (∀ p ∈ qs, p ∈ G) →
                cs.map t1.loadOf = qs.map (·.loadValue) := by
              intro cs qs h1 h2
              induction h2 with
              | nil => intro _; rfl
              | @cons c p cs qs a _ ih =>
                intro h3
                obtain ⟨k, k1, k2⟩ := a
                obtain ⟨k', k1', k3⟩ := h1 c List.mem_cons_self
                rw [k1, Option.some.injEq] at k1'
                subst k1'
                obtain ⟨p', p1, p2, p3, p4⟩ := r5 c k k1 k3
                have : p' = p := owned_inj hnd p1 (h3 p List.mem_cons_self) (by rw [p2, k2])
                subst this
                rw [List.map_cons, List.map_cons, ih (fun c hc => h1 c (List.mem_cons_of_mem _ hc)) (fun p hp => h3 p (List.mem_cons_of_mem _ hp))]
                congr 1
                unfold PTree.loadOf
                rw [k1]
                exact p4
            exact hh _ _ n4 q1 q2
          rw [hq]
          refine lt_of_le_of_lt (sum_le_of_subset hGnd (List.Nodup.of_map _ q4) q2 _) ?_
          rw [hG]; exact h.load
        have hdis := requests_disjoint_inv s.tree H.tl.tinv (loadsOf G) hLk e.ls e.ps h.ls.1 h.ps.1 t1 r0 env.critSplit env.critMerge h.crit x n n1 hsum hm
        have hxs : x ∉ srq := by
          intro hin
          obtain ⟨m, m1, m2, -⟩ := hsq x hin
          rw [n1, Option.some.injEq] at m1
          subst m1
          rw [m2] at n3; cases n3
        obtain ⟨b, hb⟩ := b4 x n hxs n1
        have hflag : b = true := by
          refine (b2.tl.tinv.flag x _ hb).2 ⟨n3, ?_⟩
          intro c hc
          obtain ⟨k, k1, k2⟩ := n4 c hc
          have hcs : c ∉ srq := by
            intro hin
            have := (hsm c).1 hin
            rw [hdis c hc] at this; cases this
          obtain ⟨b', hb'⟩ := b4 c k hcs k1
          exact ⟨_, hb', k2⟩
        obtain ⟨ps, u1, u2, u3, u4⟩ := tl_children b2.tl hb hflag
        refine ⟨({ n with allLeafs := b }, ps), fun _ => ⟨hb, hflag, u1, u2, u4, ?_⟩⟩
        rw [← u1.length_eq]
        exact (b2.tl.tinv.kids x _ hb n3).1
      · exact ⟨(⟨⟨⟨0, 0, 0⟩, ⟨0, 0, 0⟩⟩, 0, u64max, [], true, false, 0, 0⟩, []), fun h => absurd h hx⟩
    choose nps hnps using hmr
    have hidx : ∀ x ∈ mrq, ∀ p ∈ (nps x).2, s1.global[gidx s1.global p.idPatch]? = some p := by
      intro x hx p hp
      obtain ⟨i, hi⟩ := List.mem_iff_getElem?.1 ((hnps x hx).2.2.2.1 p hp)
      rw [gidx_eq hnd1 hi]; exact hi
    obtain ⟨ix, hix⟩ : ∃ f : Nat → List Nat, f = fun x => (nps x).2.map fun p => gidx s1.global p.idPatch := ⟨_, rfl⟩
    have hdisj : ∀ a ∈ mrq, ∀ b ∈ mrq, a ≠ b → ∀ i ∈ ix a, i ∉ ix b := by
      intro a ha b hb hab i hia hib
      rw [hix] at hia hib
      obtain ⟨p, p1, p2⟩ := List.mem_map.1 hia
      obtain ⟨q, q1, q2⟩ := List.mem_map.1 hib
      have hpq : p = q := by
        have e1 := hidx a ha p p1
        have e2 := hidx b hb q q1
        rw [p2] at e1
        rw [q2, e1, Option.some.injEq] at e2
        exact e2
      subst hpq
      obtain ⟨a1, a2, a3, -⟩ := hnps a ha
      obtain ⟨c1, c2, c3, -⟩ := hnps b hb
      obtain ⟨x, hx, k, k1, k2⟩ := forall2_mem_right a3 p p1
      obtain ⟨y, hy, k', k1', k2'⟩ := forall2_mem_right c3 p q1
      obtain ⟨f1, f2⟩ := (b2.tl.tinv.flag a _ a1).1 a2
      obtain ⟨g1, g2⟩ := (b2.tl.tinv.flag b _ c1).1 c2
      obtain ⟨m, m1, m2⟩ := f2 x hx
      obtain ⟨m', m1', m2'⟩ := g2 y hy
      rw [k1, Option.some.injEq] at m1
      rw [k1', Option.some.injEq] at m1'
      subst m1
      subst m1'
      have hxy : x = y := b2.tl.inj x y k k' k1 k1' m2 m2' (by rw [k2, k2'])
      subst hxy
      obtain ⟨i1, hi1⟩ := List.mem_iff_getElem?.1 hx
      obtain ⟨i2, hi2⟩ := List.mem_iff_getElem?.1 hy
      obtain ⟨z, z1, z2, -⟩ := b2.tl.tinv.down a _ a1 f1 i1 x hi1
      obtain ⟨z', z1', z2', -⟩ := b2.tl.tinv.down b _ c1 g1 i2 x hi2
      rw [z1, Option.some.injEq] at z1'
      subst z1'
      exact hab (z2.symm.trans z2')
    have hixn : ∀ a ∈ mrq, (ix a).Nodup := by
      intro a ha
      rw [hix]
      refine List.Nodup.map_on (fun p hp q hq hpq => ?_) (List.Nodup.of_map _ (hnps a ha).2.2.2.2.1)
      have e1 := hidx a ha p hp
      have e2 := hidx a ha q hq
      rw [hpq, e2, Option.some.injEq] at e1
      exact e1.symm
    have hixlt : ∀ a ∈ mrq, ∀ i ∈ ix a, i < s1.global.length := by
      intro a ha i hi
      rw [hix] at hi
      obtain ⟨p, p1, p2⟩ := List.mem_map.1 hi
      have := hidx a ha p p1
      rw [p2] at this
      exact (List.getElem?_eq_some_iff.1 this).1
    have hcons : ∀ a ∈ mrq, ∃ p0 rest, (nps a).2 = p0 :: rest ∧ ix a = gidx s1.global p0.idPatch :: rest.map (fun p => gidx s1.global p.idPatch) := by
      intro a ha
      have hl := (hnps a ha).2.2.2.2.2
      cases hc : (nps a).2 with
      | nil => rw [hc] at hl; cases hl
      | cons p0 rest => exact ⟨p0, rest, rfl, by rw [hix]; simp only [hc, List.map_cons]⟩
    obtain ⟨g2, c1, c2, c3, c4, c5, c6⟩ := setPackValues_spec (gidx s1.global) s1.tree ix mrq s1.global (by
      intro x hx
      obtain ⟨a1, a2, a3, a4, a5, a6⟩ := hnps x hx
      obtain ⟨p0, rest, e1, e2⟩ := hcons x hx
      refine ⟨(nps x).1, (nps x).2.map (·.idPatch), a1, linksOf_ok _ _ _ a3, ?_, by rw [e2]; simp, hixlt x hx⟩
      rw [List.map_map, hix]; rfl) hmn hdisj hixn
    have hkey : (s1.global.map patchKey).Perm (g2.map patchKey) := by rw [c3]
    have hg2 : ∀ (i : Nat) p, g2[i]? = some p → ∃ q, s1.global[i]? = some q ∧ patchKey q = patchKey p := by
      intro i p hi
      have e1 : (g2.map patchKey)[i]? = some (patchKey p) := by rw [List.getElem?_map, hi]; rfl
      rw [c3, List.getElem?_map] at e1
      cases hq : s1.global[i]? with
      | none => rw [hq] at e1; cases e1
      | some q => rw [hq] at e1; exact ⟨q, rfl, Option.some.inj e1⟩
    have hg2' : ∀ (i : Nat) q, s1.global[i]? = some q → ∃ p, g2[i]? = some p ∧ patchKey q = patchKey p := by
      intro i q hi
      have hlt := (List.getElem?_eq_some_iff.1 hi).1
      obtain ⟨p, hp⟩ : ∃ p, g2[i]? = some p := ⟨g2[i]'(by omega), List.getElem?_eq_getElem _⟩
      obtain ⟨q', e1, e2⟩ := hg2 i p hp
      rw [hi, Option.some.injEq] at e1
      subst e1
      exact ⟨p, hp, e2⟩
    have keyid : ∀ {p q : Patch}, patchKey p = patchKey q → p.idPatch = q.idPatch ∧ p.nodeOwnerId = q.nodeOwnerId ∧ p.coord = q.coord := by
      intro p q h
      unfold patchKey at h
      rw [Prod.mk.injEq, Prod.mk.injEq] at h
      exact h
    have hI2 : SplInv env smin W ({ s1 with global := g2 } : Sched α) := by
      refine ⟨b2.tl.congrKey hkey, b2.dinv.congrKey hkey, ?_, b2.next⟩
      intro p hp
      obtain ⟨i, hi⟩ := List.mem_iff_getElem?.1 hp
      obtain ⟨q, q1, q2⟩ := hg2 i p hi
      rw [← (keyid q2).1]
      exact b2.pid q (List.mem_of_getElem? q1)
    have hlen1 : s1.global.length ≤ 2 ^ 32 := hlenG _ _ hnd1 hpid1
    have hsum2 : (g2.map (·.loadValue)).sum ≤ (G.map (·.loadValue)).sum := by rw [c4]; exact b7
    refine ⟨{ s1 with global := g2 }, srq, mrq, gidx s1.global, ?_, ?_, fun h => by cases h⟩
    · unfold schedPre
      rw [if_neg (by rw [h.fresh]; simp), ← hG]
      simp only [Bool.true_eq_false, if_false]
      rw [r0]
      simp only [Res.bind]
      rw [← hsrq, ← hmrq, b1]
      simp only [c1]
    · refine ⟨hI2, ⟨?_, ?_, ?_, ?_, ?_⟩, b5, ?_, hmn, ?_, ?_, ?_, ?_, ?_, b13, by rw [← hG]; exact hcount⟩
      · intro hnil
        have hnil' : g2 = [] := hnil
        rw [hnil'] at c2
        have : G.length = 0 := by
          have := b8
          simp only at this
          simp only [List.length_nil] at c2
          omega
        have := List.eq_nil_of_length_eq_zero this
        rw [hG] at this
        exact h.ne this
      · have := h.load
        rw [← hG] at this
        exact lt_of_le_of_lt hsum2 this
      · show g2.length < 2 ^ 64
        rw [c2]
        omega
      · intro p hp
        exact (hI2.dinv.owned.owner p hp).1
      · -- packs
        intro i p hi hne
        by_cases hin : ∃ x ∈ mrq, i ∈ (ix x).tail
        · obtain ⟨x, hx, hit⟩ := hin
          obtain ⟨p0, rest, e1, e2⟩ := hcons x hx
          have hit' : i ∈ rest.map (fun p => gidx s1.global p.idPatch) := by rw [e2] at hit; exact hit
          obtain ⟨p', f1, f2⟩ := c5 x hx _ _ e2 i hit'
          have hi' : g2[i]? = some p := hi
          rw [hi', Option.some.injEq] at f1
          subst f1
          have hp0 := hidx x hx p0 (by rw [e1]; exact List.mem_cons_self)
          refine ⟨p0, ?_, hpack1 p0 (List.mem_of_getElem? hp0)⟩
          show g2[p.packNodeIndex]? = some p0
          rw [f2, c6, hp0]
          intro y hy hyt
          by_cases hxy : x = y
          · subst hxy
            have := hixn x hx
            rw [e2] at hyt this
            exact (List.nodup_cons.1 this).1 hyt
          · exact hdisj x hx y hy hxy _ (by rw [e2]; exact List.mem_cons_self) (List.mem_of_mem_tail hyt)
        · have hi' : g2[i]? = some p := hi
          rw [c6 i (fun x hx hit => hin ⟨x, hx, hit⟩)] at hi'
          exact absurd (hpack1 p (List.mem_of_getElem? hi')) hne
      · intro i p hi
        obtain ⟨q, q1, q2⟩ := hg2 i p hi
        rw [← (keyid q2).1]
        exact gidx_eq hnd1 q1
      · intro x hx
        obtain ⟨a1, a2, a3, a4, a5, a6⟩ := hnps x hx
        obtain ⟨p0, rest, e1, e2⟩ := hcons x hx
        obtain ⟨qs, u1, u2, u3, u4⟩ := tl_children hI2.tl a1 a2
        have hqs : List.Forall₂ (fun (p q : Patch) => q.idPatch = p.idPatch) (nps x).2 qs := by
          have hh : ∀ (cs : List Nat) (ps qs : List Patch), List.Forall₂ (fun c (p : Patch) => ∃ k, s1.tree.tree c = some k ∧ k.linked = p.idPatch) cs ps →
              List.Forall₂ (fun c (p : Patch) => ∃ k, s1.tree.tree c = some k ∧ k.linked = p.idPatch) cs qs → List.Forall₂ (fun (p q : Patch) => q.idPatch = p.idPatch) ps qs := by
            intro cs ps qs h1
            induction h1 generalizing qs with
            | nil => intro h2; cases h2; exact List.Forall₂.nil
            | cons a _ ih =>
              intro h2
              cases h2 with
              | cons b h2 =>
                obtain ⟨k, k1, k2⟩ := a
                obtain ⟨k', k1', k2'⟩ := b
                rw [k1, Option.some.injEq] at k1'
                subst k1'
                exact List.Forall₂.cons (k2'.symm.trans k2) (ih _ h2)
          exact hh _ _ _ a3 u1
        rw [e1] at hqs
        cases hqs with
        | @cons _ q0 _ qrest hq0 hqr =>
          refine ⟨(nps x).1, q0, qrest, a1, a2, u1, u2, ?_⟩
          intro q hq
          obtain ⟨p, hp, hpq⟩ := forall2_mem_right hqr q hq
          obtain ⟨p', f1, f2⟩ := c5 x hx _ _ e2 (gidx s1.global p.idPatch) (List.mem_map_of_mem (f := fun p => gidx s1.global p.idPatch) hp)
          have hpi := hidx x hx p (by rw [e1]; exact List.mem_cons_of_mem _ hp)
          obtain ⟨p'', w1, w2⟩ := hg2' _ _ hpi
          rw [f1, Option.some.injEq] at w1
          subst w1
          have hqp : q = p' := owned_inj hI2.dinv.owned.ids (u2 q (List.mem_cons_of_mem _ hq)) (List.mem_of_getElem? f1) (by
            rw [hpq]; exact (keyid w2).1)
          rw [hqp, f2, hq0]
      · show s1.tree.nextId = _
        rw [b3]
        show t1.nextId + _ = _
        rw [r4]
      · rw [← hG]; exact hsum2
      · show g2.length = _
        rw [c2, b8, ← hG]
      · show s1.fresh = true
        rw [b12]; exact h.fresh

end Shamrock
