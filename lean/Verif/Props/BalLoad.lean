import Verif.Model.BalLoad
import Verif.Props.Sched
/-! **C42.** The balancing loop at the end of `push_patch_data`. -/
namespace Shamrock

attribute [local irreducible] u64max getSplit

/-- A step splits at most the patches whose load is above the threshold. -/
theorem step_next {α F P : Type} [LinearOrder F] {env : SchedEnv α F} {b : LBEnv α P} {smin : V3 Nat} (he : EnvOk env smin) {W : Nat} (hW : 0 < W) (hW2 : W < 2 ^ 31)
    {s s' : Sched α} {e : StepEnv} (H : SchedOk env smin W s) (h : StepOk env W e s) (hc : CodecOk b.ser b.des env.lay W s.data) {doSM doLB : Bool}
    (hb : doSM = true → doLB = true) (ht : SchedStep env b W e doSM doLB s s') :
    s'.tree.nextId ≤ s.tree.nextId + 8 * ((buildGlobal W s.locals).filter fun p => decide (env.critSplit < p.loadValue)).length := by
  obtain ⟨s1, srq, mrq, im, s2, t1, hs2, t3⟩ := ht
  obtain ⟨s1', srq', mrq', im', a1, a2, a3⟩ := step_pre he H h doSM
  rw [t1, Res.ok.injEq, Prod.mk.injEq, Prod.mk.injEq, Prod.mk.injEq] at a1
  obtain ⟨rfl, rfl, rfl, rfl⟩ := a1
  obtain ⟨ops, ps', c1, c2, c3, c4, c5⟩ := lb_ok b.rnd b.sort b.hilb b.ser b.des hW hW2 a2 (e.packOrder s1.global.length) (h.packOrder _) hc
  have hB : BalOk env smin W mrq im s1 s2 := by
    rcases hs2 with ⟨_, ops', ps2, prog, sf, ord, n, st, data', e1, e2, e3, e4, e5, e6, rfl⟩ | ⟨hl, rfl⟩
    · rw [c1, Res.ok.injEq] at e1
      subst e1
      rw [c2, Res.ok.injEq] at e2
      subst e2
      exact ((c5 prog e3).2 sf ord n st e4 e5).2 data' e6
    · have hm : mrq = [] := (a3 (by
        cases doSM with
        | false => rfl
        | true => rw [hb rfl] at hl; cases hl)).2
      subst hm
      exact noLB_ok hW2 a2
  obtain ⟨s'', b1, b2, b3, b4, -⟩ := step_post he hW2 h.iterO (in_parent_box he) srq mrq s2 hB.inv a2.nodup hB.ready (by
    intro v hv
    rw [(hB.objs.trans a2.objs).length_eq]
    exact h.size v hv)
  rw [t3, Res.ok.injEq] at b1
  rw [b1, b4, hB.next, a2.next]
  have := a2.count
  omega

theorem flatMap_single {β : Type} (f : Nat → List β) (r W : Nat) (h : ∀ k < W, k ≠ r → f k = []) (hr : r < W) : (List.range W).flatMap f = f r := by
  induction W with
  | zero => omega
  | succ W ih =>
    rw [List.range_succ, List.flatMap_append]
    simp only [List.flatMap_cons, List.flatMap_nil, List.append_nil]
    by_cases hrW : r = W
    · subst hrW
      have : (List.range r).flatMap f = [] := by
        rw [List.flatMap_eq_nil_iff]
        intro k hk
        have := List.mem_range.1 hk
        exact h k (by omega) (by omega)
      rw [this, List.nil_append]
    · rw [ih (fun k hk hne => h k (by omega) hne) (by omega), h W (by omega) (fun e => hrW e.symm), List.append_nil]

/-- The local lists after the global one was put together are the same. -/
theorem local_of_global {W : Nat} (hW2 : W < 2 ^ 31) (locals : Nat → List Patch) (hl : ∀ r < W, ∀ p ∈ locals r, p.nodeOwnerId = r)
    (hp : ∀ p ∈ buildGlobal W locals, p.packNodeIndex = u64max) (r : Nat) (hr : r < W) : resetPack (buildLocal (buildGlobal W locals) r) = locals r := by
  have h1 : buildLocal (buildGlobal W locals) r = locals r := by
    unfold buildLocal buildGlobal
    rw [List.filter_flatMap, flatMap_single _ r W ?_ hr]
    · rw [List.filter_eq_self]
      intro p hpm
      have := hl r hr p hpm
      have he : p.isErrMode = false := by
        cases he : p.isErrMode with
        | false => rfl
        | true => have := (isErr_iff p).1 he; omega
      simp [this, he]
    · intro k hk hne
      rw [List.filter_eq_nil_iff]
      intro p hpm
      have := hl k hk p hpm
      simp [this, hne]
  rw [h1]
  unfold resetPack
  conv_rhs => rw [← List.map_id (locals r)]
  apply List.map_congr_left
  intro p hpm
  have := hp p (List.mem_flatMap.2 ⟨r, List.mem_range.2 hr, hpm⟩)
  show { p with packNodeIndex := u64max } = p
  rw [← this]

/-- The first step of an iteration, `scheduler_step(false, false)`. -/
theorem step_ff {α F P : Type} [LinearOrder F] {env : SchedEnv α F} {b : LBEnv α P} {smin : V3 Nat} {W : Nat} (hW2 : W < 2 ^ 31) {s s' : Sched α} {e : StepEnv}
    (H : SchedOk env smin W s) (hf : s.fresh = true) (ht : SchedStep env b W e false false s s') :
    s'.tree = s.tree ∧ s'.data = s.data ∧ ∀ r < W, s'.locals r = s.locals r := by
  obtain ⟨s1, srq, mrq, im, s2, t1, hs2, t3⟩ := ht
  unfold schedPre at t1
  rw [if_neg (by simp [hf]), if_pos rfl] at t1
  simp only [Res.ok.injEq, Prod.mk.injEq] at t1
  obtain ⟨rfl, rfl, rfl, rfl⟩ := t1
  rcases hs2 with ⟨h, -⟩ | ⟨-, rfl⟩
  · cases h
  · unfold schedPost mergePatches at t3
    simp only [Res.bind, Res.ok.injEq] at t3
    subst t3
    exact ⟨rfl, rfl, fun r hr => local_of_global hW2 s.locals H.loc H.packs r hr⟩

/-- The hash sets can be enumerated. -/
theorem exec_exists {α : Type} (s : Sched α) (H : TInv s.tree) : ∃ e, StepExec e s := by
  refine ⟨⟨(List.range s.tree.nextId).filter s.tree.leafKey, (List.range s.tree.nextId).filter s.tree.polk, id, id, fun _ l => l, fun _ => 0, List.range⟩, ⟨?_, ?_⟩, ⟨?_, ?_⟩, ?_, ?_, ?_, ?_⟩
  · intro x
    simp only [List.mem_filter, List.mem_range]
    refine ⟨fun h => h.2, fun h => ⟨?_, h⟩⟩
    obtain ⟨n, n1, -⟩ := (H.leaf x).1 h
    exact H.fresh x n n1
  · exact List.nodup_range.filter _
  · intro x
    simp only [List.mem_filter, List.mem_range]
    refine ⟨fun h => h.2, fun h => ⟨?_, h⟩⟩
    obtain ⟨n, n1, -⟩ := (H.polk x).1 h
    exact H.fresh x n n1
  · exact List.nodup_range.filter _
  · exact fun l => List.Perm.refl _
  · exact fun l => List.Perm.refl _
  · exact fun _ l => List.Perm.refl _
  · exact fun n => List.Perm.refl _

/-! ### Statement -/

/-- `owned_patch_id` is the set of the local patches. -/
def Synced {α : Type} (W : Nat) (s : Sched α) : Prop := ∀ r < W, ∀ id, id ∈ s.owned r ↔ id ∈ (s.locals r).map (·.idPatch)

/-- Limits of the run for the objects `objs`: there is at least one; the sizes fit u32; the messages come through the serialization; a box that can not be split any more does
not contain more than `critSplit` objects; the merge threshold is not above the split threshold. -/
structure BalLimits {α F P : Type} [LinearOrder F] (env : SchedEnv α F) (b : LBEnv α P) (smin : V3 Nat) (objs : List (List (List α))) : Prop where
  ne : objs ≠ []
  size : ∀ v ∈ env.lay, objs.length * v < 2 ^ 32
  codec : ∀ l : PLayer α, l.Good env.lay → l.objects.Subperm objs → ∃ p, b.ser l = .ok p ∧ b.des p = .ok l
  room : ∀ (c : PatchCoord) (l : List (List (List α))), CoordOk smin c → l.Subperm objs → (∀ o ∈ l, InPatch env.pos env.box c o) → env.critSplit < l.length → Splittable c
  crit : env.critMerge ≤ env.critSplit

/-- `k` iterations of the loop. -/
inductive BalIters {α F P : Type} [LinearOrder F] (env : SchedEnv α F) (b : LBEnv α P) (W : Nat) (load : Sched α → Nat → Patch → Nat) : Nat → Sched α → Sched α → Prop where
  | zero (s : Sched α) : BalIters env b W load 0 s s
  | succ {k : Nat} {s t u : Sched α} (h : BalIters env b W load k s t) (hi : BalIter env b W load t u) : BalIters env b W load (k + 1) s u

/-! ### Proof -/

theorem patch_data {α F : Type} [LinearOrder F] {env : SchedEnv α F} {smin : V3 Nat} (he : EnvOk env smin) {W : Nat} {s : Sched α} (H : SchedOk env smin W s) {p : Patch}
    (hp : p ∈ buildGlobal W s.locals) : CoordOk smin p.coord ∧ countLoad s p.nodeOwnerId p = (patchObjs s.data p).length ∧
      (patchObjs s.data p).Subperm (allObj W s.data) ∧ ∀ o ∈ patchObjs s.data p, InPatch env.pos env.box p.coord o := by
  obtain ⟨hlt, l, hl⟩ := H.dinv.owned.owner p hp
  have hg := H.dinv.good _ hlt _ _ hl
  have hpo : patchObjs s.data p = l.objects := by unfold patchObjs; rw [hl]
  refine ⟨?_, ?_, ?_, ?_⟩
  · obtain ⟨x, n, n1, n2, n3⟩ := H.tl.patchL p hp
    obtain ⟨q, q1, q2, q3⟩ := H.tl.leafP x n n1 n2
    have : q = p := owned_inj H.dinv.owned.ids q1 hp (q2.trans n3)
    rw [← this, q3]
    exact H.tl.coords x n n1
  · unfold countLoad
    rw [hl, hpo]
    simp only [(good_count he.lay.1 hg).2.2]
  · refine List.Subperm.trans ?_ (owned_objs H.dinv.owned).symm.subperm
    obtain ⟨a, c, hac⟩ := List.append_of_mem hp
    rw [hac, List.flatMap_append, List.flatMap_cons]
    exact ((List.sublist_append_left _ _).trans (List.sublist_append_right _ _)).subperm
  · rw [hpo]; exact H.dinv.place p hp l hl

theorem filter_count_le (l : List Patch) (c : Nat) : (l.filter fun p => decide (c < p.loadValue)).length * (c + 1) ≤ (l.map (·.loadValue)).sum := by
  induction l with
  | nil => simp
  | cons p l ih =>
    rw [List.map_cons, List.sum_cons, List.filter_cons]
    split
    · rename_i h
      have := of_decide_eq_true h
      rw [List.length_cons, Nat.succ_mul]
      omega
    · omega

/-- One iteration with the object counts as loads. -/
theorem bal_iter {α F P : Type} [LinearOrder F] (env : SchedEnv α F) (b : LBEnv α P) (smin : V3 Nat) (he : EnvOk env smin) (W : Nat) (hW : 0 < W) (hW2 : W < 2 ^ 31)
    (s : Sched α) (h : SchedHist env b smin W s) (hy : Synced W s) (hl : BalLimits env b smin (allObj W s.data))
    (hid : s.tree.nextId + 8 * ((allObj W s.data).length / (env.critSplit + 1)) ≤ 2 ^ 32) :
    ∃ s1, updateLoads W (countLoad s) s = .ok s1 ∧ SchedHist env b smin W s1 ∧ (∃ e, StepExec e s1) ∧ ∀ e1, StepExec e1 s1 →
      StepOk env W e1 s1 ∧ CodecOk b.ser b.des env.lay W s1.data ∧ (∃ s2, SchedStep env b W e1 false false s1 s2) ∧ ∀ s2, SchedStep env b W e1 false false s1 s2 →
        SchedHist env b smin W s2 ∧ (∃ e, StepExec e s2) ∧ ∀ e2, StepExec e2 s2 →
          StepOk env W e2 s2 ∧ CodecOk b.ser b.des env.lay W s2.data ∧ (∃ s', SchedStep env b W e2 true true s2 s') ∧ ∀ s', SchedStep env b W e2 true true s2 s' →
            SchedHist env b smin W s' ∧ Synced W s' ∧ (allObj W s'.data).Perm (allObj W s.data) ∧
            s'.tree.nextId ≤ s.tree.nextId + 8 * ((allObj W s.data).length / (env.critSplit + 1)) := by
  have H := h.ok he hW hW2
  obtain ⟨s1, u1, H1, u3, u4, u5, u6, u7⟩ := updateLoads_ok H (countLoad s)
  have h1 : SchedHist env b smin W s1 := .loads s s1 _ h u1
  have hloc : ∀ r < W, s1.locals r = (s.locals r).map fun p => { p with loadValue := countLoad s r p } := by
    intro r hr
    rw [u7 r hr]
    apply List.map_congr_left
    intro p hp
    rw [if_pos ((hy r hr _).2 (List.mem_map_of_mem hp))]
  have hglob : buildGlobal W s1.locals = (buildGlobal W s.locals).map fun p => { p with loadValue := countLoad s p.nodeOwnerId p } := by
    unfold buildGlobal
    rw [List.map_flatMap]
    apply List.flatMap_congr
    intro r hr
    rw [hloc r (List.mem_range.1 hr)]
    apply List.map_congr_left
    intro p hp
    rw [H.loc r (List.mem_range.1 hr) p hp]
  have hsum : ((buildGlobal W s1.locals).map (·.loadValue)).sum = (allObj W s.data).length := by
    rw [(owned_objs H.dinv.owned).length_eq, List.length_flatMap, hglob, List.map_map]
    congr 1
    apply List.map_congr_left
    intro p hp
    exact (patch_data he H hp).2.1
  have hcodec : ∀ data : Nat → RankData α, (allObj W data).Perm (allObj W s.data) → CodecOk b.ser b.des env.lay W data := by
    rintro data hperm l hg ⟨r, hr, id, l', hm, hsub⟩
    refine hl.codec l hg (hsub.trans (List.Subperm.trans ?_ hperm.subperm))
    refine List.Sublist.subperm ?_
    unfold allObj
    have m1 := mfind_mem' _ _ _ hm
    obtain ⟨a, c, hac⟩ := List.append_of_mem m1
    obtain ⟨a', c', hac'⟩ := List.append_of_mem (List.mem_range.2 hr)
    rw [hac', List.flatMap_append, List.flatMap_cons, hac, List.flatMap_append, List.flatMap_cons]
    exact ((List.sublist_append_left _ _).trans (List.sublist_append_right _ _)).trans ((List.sublist_append_left _ _).trans (List.sublist_append_right _ _))
  have hN : (allObj W s.data).length < 2 ^ 32 := by
    obtain ⟨hne, hpos⟩ := he.lay
    obtain ⟨v, hv⟩ := List.exists_mem_of_ne_nil _ hne
    have := hl.size v hv
    have := hpos v hv
    nlinarith
  have hne1 : buildGlobal W s1.locals ≠ [] := by
    intro hn
    rw [hn] at hsum
    have : (allObj W s.data).length = 0 := hsum.symm
    exact hl.ne (List.eq_nil_of_length_eq_zero this)
  have hcnt : ((buildGlobal W s1.locals).filter fun p => decide (env.critSplit < p.loadValue)).length ≤ (allObj W s.data).length / (env.critSplit + 1) := by
    rw [Nat.le_div_iff_mul_le (by omega), ← hsum]
    exact filter_count_le _ _
  have hok : ∀ (t : Sched α) e, StepExec e t → t.fresh = true → t.tree = s.tree → t.data = s.data → buildGlobal W t.locals = buildGlobal W s1.locals → StepOk env W e t := by
    intro t e hx hf htree hdata hg
    refine ⟨hf, by rw [hg]; exact hne1, by rw [hg, hsum]; omega, hx.ls, hx.ps, hx.iterS, hx.iterM, hx.iterO, hx.packOrder, ?_, ?_, hl.crit, ?_⟩
    · intro p hp hlt
      rw [hg, hglob] at hp
      obtain ⟨q, hq, rfl⟩ := List.mem_map.1 hp
      obtain ⟨c1, c2, c3, c4⟩ := patch_data he H hq
      exact hl.room q.coord _ c1 c3 c4 (by rw [← c2]; exact hlt)
    · rw [htree, hg]
      omega
    · rw [hdata]; exact hl.size
  refine ⟨s1, u1, h1, exec_exists s1 H1.tl.tinv, fun e1 hx1 => ?_⟩
  have k1 := hok s1 e1 hx1 u3 u4 u5 rfl
  have kc1 : CodecOk b.ser b.des env.lay W s1.data := hcodec _ (by rw [u5])
  refine ⟨k1, kc1, C37_step_exists env b smin he W hW hW2 s1 h1 e1 false false k1 (by simp) kc1, fun s2 ht => ?_⟩
  have h2 : SchedHist env b smin W s2 := .step s1 s2 e1 false false h1 k1 (by simp) kc1 ht
  obtain ⟨v1, v2, v3⟩ := step_ff hW2 H1 u3 ht
  obtain ⟨-, -, -, -, v4⟩ := C37_step_conserves env b smin he W hW hW2 s1 s2 h1 e1 false false k1 (by simp) kc1 ht
  have hg2 : buildGlobal W s2.locals = buildGlobal W s1.locals := by
    unfold buildGlobal
    exact List.flatMap_congr fun r hr => v3 r (List.mem_range.1 hr)
  refine ⟨h2, exec_exists s2 (h2.ok he hW hW2).tl.tinv, fun e2 hx2 => ?_⟩
  have k2 := hok s2 e2 hx2 (v4 rfl) (by rw [v1, u4]) (by rw [v2, u5]) hg2
  have kc2 : CodecOk b.ser b.des env.lay W s2.data := hcodec _ (by rw [v2, u5])
  refine ⟨k2, kc2, C37_step_exists env b smin he W hW hW2 s2 h2 e2 true true k2 (fun _ => rfl) kc2, fun s' ht' => ?_⟩
  obtain ⟨w1, -, -, w2, -⟩ := C37_step_conserves env b smin he W hW hW2 s2 s' h2 e2 true true k2 (fun _ => rfl) kc2 ht'
  refine ⟨.step s2 s' e2 true true h2 k2 (fun _ => rfl) kc2 ht', w2, ?_, ?_⟩
  · rw [v2, u5] at w1; exact w1
  · have := step_next he hW hW2 (h2.ok he hW hW2) k2 kc2 (fun _ => rfl) ht'
    rw [v1, u4, hg2] at this
    omega

theorem BalLimits.perm {α F P : Type} [LinearOrder F] {env : SchedEnv α F} {b : LBEnv α P} {smin : V3 Nat} {o o' : List (List (List α))} (h : BalLimits env b smin o) (hp : o'.Perm o) :
    BalLimits env b smin o' := by
  refine ⟨fun e => ?_, ?_, ?_, ?_, h.crit⟩
  · subst e; exact h.ne (List.nil_perm.1 hp)
  · intro v hv; rw [hp.length_eq]; exact h.size v hv
  · intro l hg hs; exact h.codec l hg (hs.trans hp.subperm)
  · intro c l hc hs; exact h.room c l hc (hs.trans hp.subperm)

theorem bal_iters {α F P : Type} [LinearOrder F] (env : SchedEnv α F) (b : LBEnv α P) (smin : V3 Nat) (he : EnvOk env smin) (W : Nat) (hW : 0 < W) (hW2 : W < 2 ^ 31)
    (s : Sched α) (h : SchedHist env b smin W s) (hy : Synced W s) (hl : BalLimits env b smin (allObj W s.data)) (K : Nat)
    (hid : s.tree.nextId + K * (8 * ((allObj W s.data).length / (env.critSplit + 1))) ≤ 2 ^ 32) :
    ∀ (k : Nat) t, k ≤ K → BalIters env b W countLoad k s t → SchedHist env b smin W t ∧ Synced W t ∧ (allObj W t.data).Perm (allObj W s.data) ∧
      t.tree.nextId ≤ s.tree.nextId + k * (8 * ((allObj W s.data).length / (env.critSplit + 1))) := by
  intro k
  induction k with
  | zero =>
    intro t _ hr
    cases hr
    exact ⟨h, hy, List.Perm.refl _, by omega⟩
  | succ k ih =>
    intro t hk hr
    cases hr with
    | @succ _ _ u _ hr hi =>
      obtain ⟨i1, i2, i3, i4⟩ := ih u (by omega) hr
      have hm := Nat.mul_le_mul_right (8 * ((allObj W s.data).length / (env.critSplit + 1))) hk
      rw [Nat.succ_mul] at hm
      obtain ⟨s1, u1, -, -, u2⟩ := bal_iter env b smin he W hW hW2 u i1 i2 (hl.perm i3) (by rw [i3.length_eq]; omega)
      obtain ⟨s1', e1, s2, e2, j1, j2, j3, j4, j5⟩ := hi
      rw [u1, Res.ok.injEq] at j1
      subst j1
      obtain ⟨-, -, -, u3⟩ := u2 e1 j2
      obtain ⟨-, -, u4⟩ := u3 s2 j3
      obtain ⟨-, -, -, u5⟩ := u4 e2 j4
      obtain ⟨a1, a2, a3, a4⟩ := u5 t j5
      refine ⟨a1, a2, a3.trans i3, ?_⟩
      rw [i3.length_eq] at a4
      rw [Nat.succ_mul]
      omega

/-! ### Theorems -/

/-- **C42, the balancing loop never fails.** From any state of a scheduler whose objects meet the limits, with the object counts as load values: however many of the (at most 30)
iterations of `balance_load` were made, the load update succeeds, and both scheduler steps of the next iteration meet the conditions under which `C37_step_no_failure` says that no
execution of them throws or blocks; so the iteration can be completed. -/
theorem C42_balance_no_failure {α F P : Type} [LinearOrder F] (env : SchedEnv α F) (b : LBEnv α P) (smin : V3 Nat) (he : EnvOk env smin) (W : Nat) (hW : 0 < W) (hW2 : W < 2 ^ 31)
    (s : Sched α) (h : SchedHist env b smin W s) (hy : Synced W s) (hl : BalLimits env b smin (allObj W s.data))
    (hid : s.tree.nextId + 30 * (8 * ((allObj W s.data).length / (env.critSplit + 1))) ≤ 2 ^ 32) (k : Nat) (hk : k < 30) (t : Sched α) (hr : BalIters env b W countLoad k s t) :
    ∃ s1, updateLoads W (countLoad t) t = .ok s1 ∧ SchedHist env b smin W s1 ∧ (∃ e, StepExec e s1) ∧ ∀ e1, StepExec e1 s1 →
      StepOk env W e1 s1 ∧ CodecOk b.ser b.des env.lay W s1.data ∧ (∃ s2, SchedStep env b W e1 false false s1 s2) ∧ ∀ s2, SchedStep env b W e1 false false s1 s2 →
        SchedHist env b smin W s2 ∧ (∃ e, StepExec e s2) ∧ ∀ e2, StepExec e2 s2 →
          StepOk env W e2 s2 ∧ CodecOk b.ser b.des env.lay W s2.data ∧ ∃ s', SchedStep env b W e2 true true s2 s' := by
  obtain ⟨i1, i2, i3, i4⟩ := bal_iters env b smin he W hW hW2 s h hy hl 30 hid k t (by omega) hr
  have hm := Nat.mul_le_mul_right (8 * ((allObj W s.data).length / (env.critSplit + 1))) (show k + 1 ≤ 30 by omega)
  rw [Nat.succ_mul] at hm
  obtain ⟨s1, u1, u0, ux, u2⟩ := bal_iter env b smin he W hW hW2 t i1 i2 (hl.perm i3) (by rw [i3.length_eq]; omega)
  refine ⟨s1, u1, u0, ux, fun e1 hx1 => ?_⟩
  obtain ⟨v1, v2, v3, v4⟩ := u2 e1 hx1
  refine ⟨v1, v2, v3, fun s2 ht => ?_⟩
  obtain ⟨w1, w2, w3⟩ := v4 s2 ht
  refine ⟨w1, w2, fun e2 hx2 => ?_⟩
  obtain ⟨x1, x2, x3, -⟩ := w3 e2 hx2
  exact ⟨x1, x2, x3⟩

/-- **C42, the balancing loop loses nothing.** Under the same hypotheses `balance_load` ends, and every end of it holds exactly the objects from before, in a correct scheduler state
(each object is in the patch whose box contains it, on the rank the list says), from which the simulation can go on. -/
theorem C42_balance {α F P : Type} [LinearOrder F] (env : SchedEnv α F) (b : LBEnv α P) (smin : V3 Nat) (he : EnvOk env smin) (W : Nat) (hW : 0 < W) (hW2 : W < 2 ^ 31)
    (s : Sched α) (h : SchedHist env b smin W s) (hy : Synced W s) (hl : BalLimits env b smin (allObj W s.data))
    (hid : s.tree.nextId + 30 * (8 * ((allObj W s.data).length / (env.critSplit + 1))) ≤ 2 ^ 32) :
    (∃ s', BalanceLoad env b W countLoad s s') ∧
    ∀ s', BalanceLoad env b W countLoad s s' → (allObj W s'.data).Perm (allObj W s.data) ∧ SchedSpec env W s' ∧ Synced W s' ∧ SchedHist env b smin W s' := by
  constructor
  · have key : ∀ n k last t, k + n = 30 → BalIters env b W countLoad k s t → ∃ s', BalRun env b W countLoad n last t s' := by
      intro n
      induction n with
      | zero => intro k last t _ _; exact ⟨t, .out last t⟩
      | succ n ih =>
        intro k last t hk hr
        obtain ⟨s1, u1, -, ⟨e1, ux⟩, u2⟩ := C42_balance_no_failure env b smin he W hW hW2 s h hy hl hid k (by omega) t hr
        obtain ⟨-, -, ⟨s2, v1⟩, v2⟩ := u2 e1 ux
        obtain ⟨-, ⟨e2, w1⟩, w2⟩ := v2 s2 v1
        obtain ⟨-, -, t', x⟩ := w2 e2 w1
        have hi : BalIter env b W countLoad t t' := ⟨s1, e1, s2, e2, u1, ux, v1, w1, x⟩
        by_cases he : t'.global.length = last
        · exact ⟨t', .stable n last t t' hi he⟩
        · obtain ⟨s', hs'⟩ := ih (k + 1) t'.global.length t' (by omega) (hr.succ hi)
          exact ⟨s', .again n last t t' s' hi he hs'⟩
    exact key 30 0 _ s rfl (.zero s)
  · have key : ∀ n last t s', BalRun env b W countLoad n last t s' → ∀ k, k + n = 30 → BalIters env b W countLoad k s t → ∃ k', k' ≤ 30 ∧ BalIters env b W countLoad k' s s' := by
      intro n last t s' hr
      induction hr with
      | out last t => intro k hk hi; exact ⟨k, by omega, hi⟩
      | stable n last t s' hit he => intro k hk hi; exact ⟨k + 1, by omega, hi.succ hit⟩
      | again n last t t1 s' hit he _ ih => intro k hk hi; exact ih (k + 1) (by omega) (hi.succ hit)
    intro s' hr
    obtain ⟨k', hk', hi⟩ := key 30 _ s s' hr 0 rfl (.zero s)
    obtain ⟨i1, i2, i3, -⟩ := bal_iters env b smin he W hW hW2 s h hy hl 30 hid k' s' hk' hi
    exact ⟨i3, C37_history env b smin he W hW hW2 s' i1, i2, i1⟩

end Shamrock
