import Verif.Proof.LoadBalance
import Mathlib.Data.List.Sort
/-! Property C33: load balancing. -/
namespace Shamrock

/-- Specification: a table gives each of the `n` tiles one rank of the world. -/
def ValidOwners (w n : Nat) (tab : List Nat) : Prop := tab.length = n ∧ ∀ o ∈ tab, o < w

/-- Specification: ranks do not decrease along the curve. -/
def CurveMonotone (tiles : List LBTile) (tab : List Nat) : Prop :=
  ∀ (i j : Nat) (ti tj : LBTile) (oi oj : Nat), tiles[i]? = some ti → tiles[j]? = some tj → tab[i]? = some oi → tab[j]? = some oj →
    ti.ord < tj.ord → oi ≤ oj

/-- The number of tiles is below `2^64` and their loads do not overflow the `u64` accumulator. -/
structure TilesOk (tiles : List LBTile) : Prop where
  ne : tiles ≠ []
  loads : (tiles.map LBTile.load).sum < 2 ^ 64
  count : tiles.length < 2 ^ 64

theorem strategy_valid (R : F64Rnd) (S : SortImpl) (inc : LBTile → Nat) (w : Nat) (tiles : List LBTile) (hw : 0 < w)
    (hw2 : w < 2 ^ 31) (hne : tiles ≠ []) (hs : (tiles.map inc).sum < 2 ^ 64) :
    ∃ tab last, lbStrategy R S inc w tiles = .ok tab ∧ ValidOwners w tiles.length tab ∧ CurveMonotone tiles tab ∧
      last ≤ (tiles.map inc).sum ∧ (∀ r ∈ accN inc (S.run tiles.zipIdx) 0, r.2 ≤ last) ∧
      ∀ r ∈ accN inc (S.run tiles.zipIdx) 0, tab[r.1.2]? = some (ownerN R (lbTarget R w last) w r.2) := by
  obtain ⟨tab, last, h1, h2, h3, h4, h5⟩ := lbStrategy_spec R S inc w tiles hw hw2 hne hs
  have key : ∀ (i : Nat) t o, tiles[i]? = some t → tab[i]? = some o → ∃ a, ((t, i), a) ∈ accN inc (S.run tiles.zipIdx) 0 ∧
      o = ownerN R (lbTarget R w last) w a := by
    intro i t o ht ho
    obtain ⟨a, ha⟩ := accN_of_tile S inc tiles i t ht
    have := (h5 _ ha).2
    simp only at this
    rw [ho] at this
    exact ⟨a, ha, Option.some.inj this⟩
  refine ⟨tab, last, h1, ⟨h2, fun o ho => ?_⟩, ?_, h3, h4, fun r hr => (h5 r hr).2⟩
  · obtain ⟨i, hi⟩ := List.mem_iff_getElem?.1 ho
    have hl : i < tab.length := (List.getElem?_eq_some_iff.1 hi).1
    obtain ⟨a, -, rfl⟩ := key i (tiles[i]'(by omega)) o (List.getElem?_eq_getElem _) hi
    exact ownerN_lt R _ w a hw
  · intro i j ti tj oi oj h1 h2 h3 h4 hlt
    obtain ⟨a, ha, rfl⟩ := key i ti oi h1 h3
    obtain ⟨b, hb, rfl⟩ := key j tj oj h2 h4
    exact ownerN_mono R (lbTarget_nonneg R w last) w (acc_order S inc tiles ha hb hlt)

theorem loads_total (w : Nat) (tiles : List LBTile) (h : TilesOk tiles) (tab : List Nat) (hv : ValidOwners w tiles.length tab) :
    ∃ res, lbLoads (tiles.zip tab) (List.replicate w 0) = .ok res ∧ res.length = w ∧
      ∀ k < w, res[k]? = some (rankLoad (tiles.zip tab) k) := by
  have hm : ((tiles.zip tab).map (·.1.load)).sum = (tiles.map LBTile.load).sum := by
    have : (tiles.zip tab).map (·.1.load) = ((tiles.zip tab).map Prod.fst).map LBTile.load := by rw [List.map_map]; rfl
    rw [this, List.map_fst_zip (by rw [hv.1])]
  obtain ⟨res, h1, h2, h3⟩ := lbLoads_eq w (tiles.zip tab) (fun x hx => hv.2 _ (List.of_mem_zip hx).2) (List.replicate w 0)
    (List.length_replicate) (by
      intro k v hk
      have : v = 0 := by
        obtain ⟨_, e⟩ := List.getElem?_eq_some_iff.1 hk
        rw [← e, List.getElem_replicate]
      rw [hm, this]
      have := h.loads
      omega)
  refine ⟨res, h1, h2, fun k hk => ?_⟩
  have := h3 k 0 (by rw [List.getElem?_replicate, if_pos hk])
  rw [this, Nat.zero_add]

/-- **C33, validity.** For every list of tiles, every world size and every rounding of the doubles, `load_balance` returns one valid
rank per tile, non decreasing along the curve, without undefined behaviour. -/
theorem C33_valid_owners (R : F64Rnd) (S : SortImpl) (w : Nat) (tiles : List LBTile) (hw : 0 < w) (hw2 : w < 2 ^ 31)
    (h : TilesOk tiles) :
    ∃ tab, loadBalance R S w tiles = .ok tab ∧ ValidOwners w tiles.length tab ∧ CurveMonotone tiles tab := by
  obtain ⟨ps, _, p1, p2, p3, -⟩ := strategy_valid R S LBTile.load w tiles hw hw2 h.ne h.loads
  obtain ⟨rr, _, r1, r2, r3, -⟩ := strategy_valid R S (fun _ => 1) w tiles hw hw2 h.ne (by simpa using h.count)
  obtain ⟨l1, e1, -⟩ := loads_total w tiles h ps p2
  obtain ⟨l2, e2, -⟩ := loads_total w tiles h rr r2
  unfold loadBalance lbSweep lbRoundRobin
  simp only [p1, r1, e1, e2, Res.bind]
  split
  · exact ⟨rr, rfl, r2, r3⟩
  · exact ⟨ps, rfl, p2, p3⟩

/-- **C33, an empty patch list** is undefined behaviour (`res[res.size() - 1]`). -/
theorem C33_empty_list_defect (R : F64Rnd) (S : SortImpl) (w : Nat) : loadBalance R S w [] = .ub := by
  have : S.run ([] : List LBTile).zipIdx = [] := List.Perm.eq_nil (S.perm _)
  simp only [loadBalance, lbSweep, lbStrategy, this, lbAccum, List.getLast?_nil, Res.bind]

theorem sweep_bound (R : F64Rnd) (S : SortImpl) (w : Nat) (tiles : List LBTile) (hw : 0 < w) (hw2 : w < 2 ^ 31)
    (h : TilesOk tiles) (tab : List Nat) (ht : lbSweep R S w tiles = .ok tab) (M : Nat) (hM : ∀ t ∈ tiles, t.load ≤ M) (k : Nat) (hk : k < w) :
    (rankLoad (tiles.zip tab) k : ℚ) ≤ ((tiles.map LBTile.load).sum / w) * (1 + 1 / 2 ^ 16) + M := by
  obtain ⟨ps, last, p1, p2, p3, p4, p5, p6⟩ := strategy_valid R S LBTile.load w tiles hw hw2 h.ne h.loads
  have e : ps = tab := by
    have : lbStrategy R S LBTile.load w tiles = .ok tab := ht
    rw [p1] at this; exact Res.ok.inj this
  subst e
  rw [rankLoad_acc S LBTile.load tiles ps p2.1 _ p6 k]
  have hwq : (0:ℚ) < w := by exact_mod_cast hw
  have hwq2 : (w:ℚ) < 2147483648 := by exact_mod_cast hw2
  have hkq : (k:ℚ) + 1 ≤ w := by exact_mod_cast hk
  have hk0 : (0:ℚ) ≤ k := Nat.cast_nonneg _
  have hT : (0:ℚ) ≤ last / w := by positivity
  set T : ℚ := last / w with hTd
  have hlh : (k:ℚ) * T * (1 - 1 / 2 ^ 49) ≤ (k + 1) * T * (1 + 1 / 2 ^ 49) := by
    have : (0:ℚ) ≤ k * T := by positivity
    nlinarith
  have := window_sum (fun a => ownerN R (lbTarget R w last) w a) k (k * T * (1 - 1 / 2 ^ 49)) ((k + 1) * T * (1 + 1 / 2 ^ 49)) M
    (Nat.cast_nonneg _) hlh (S.run tiles.zipIdx) 0
    (fun t ht => by
      have := (S.perm _).mem_iff.1 ht
      have := hM t.1 (List.mem_zipIdx' (show (t.1, t.2) ∈ tiles.zipIdx from this) |>.2 ▸ List.getElem_mem _)
      exact_mod_cast this)
    (fun r hr hrk => owner_window R w last r.2 k hw hw2 (p5 r hr) hrk)
  refine this.trans ?_
  have hTle : T ≤ (tiles.map LBTile.load).sum / w := by
    rw [hTd]; exact div_le_div_of_nonneg_right (by exact_mod_cast p4) hwq.le
  have hbig : ((k:ℚ) + 1) * T * (1 + 1 / 2 ^ 49) - k * T * (1 - 1 / 2 ^ 49) ≤ T * (1 + 1 / 2 ^ 16) := by
    have hk2 : (k:ℚ) * T ≤ 2147483648 * T := mul_le_mul_of_nonneg_right (by linarith) hT
    have : ((k:ℚ) + 1) * T * (1 + 1 / 2 ^ 49) - k * T * (1 - 1 / 2 ^ 49) = T * (1 + 1 / 2 ^ 49) + (k * T) * (2 / 2 ^ 49) := by ring
    rw [this]
    generalize (k:ℚ) * T = z at *
    norm_num
    norm_num at hk2
    linarith
  have hlo : (0:ℚ) ≤ k * T * (1 - 1 / 2 ^ 49) := mul_nonneg (by positivity) (by norm_num)
  have hfin : T * (1 + 1 / 2 ^ 16) ≤ ((tiles.map LBTile.load).sum / w) * (1 + 1 / 2 ^ 16 : ℚ) :=
    mul_le_mul_of_nonneg_right hTle (by norm_num)
  split
  · have := le_max_left (k * T * (1 - 1 / 2 ^ 49) : ℚ) ((0:Nat):ℚ)
    linarith
  · have h2 : (0:ℚ) ≤ ((tiles.map LBTile.load).sum / w) * (1 + 1 / 2 ^ 16 : ℚ) := le_trans (by positivity) hfin
    have : (0:ℚ) ≤ M := Nat.cast_nonneg _
    linarith

/-- **C33, quality.** Whatever strategy is chosen, no rank receives more than 1.06 times (the mean load + the load of the heaviest tile),
up to rounding. -/
theorem C33_balance_bound (R : F64Rnd) (S : SortImpl) (w : Nat) (tiles : List LBTile) (hw : 0 < w) (hw2 : w < 2 ^ 31)
    (h : TilesOk tiles) (tab : List Nat) (ht : loadBalance R S w tiles = .ok tab) (M : Nat) (hM : ∀ t ∈ tiles, t.load ≤ M)
    (k : Nat) (hk : k < w) :
    (rankLoad (tiles.zip tab) k : ℚ) ≤ 106 / 100 * ((tiles.map LBTile.load).sum / w * (1 + 1 / 2 ^ 16) + M) := by
  obtain ⟨ps, _, p1, p2, p3, -⟩ := strategy_valid R S LBTile.load w tiles hw hw2 h.ne h.loads
  obtain ⟨rr, _, r1, r2, r3, -⟩ := strategy_valid R S (fun _ => 1) w tiles hw hw2 h.ne (by simpa using h.count)
  obtain ⟨l1, e1, n1, v1⟩ := loads_total w tiles h ps p2
  obtain ⟨l2, e2, n2, v2⟩ := loads_total w tiles h rr r2
  have hb := sweep_bound R S w tiles hw hw2 h ps p1 M hM
  have hB0 : (0:ℚ) ≤ (tiles.map LBTile.load).sum / w * (1 + 1 / 2 ^ 16) + M := by positivity
  set B : ℚ := (tiles.map LBTile.load).sum / w * (1 + 1 / 2 ^ 16) + M
  unfold loadBalance lbSweep lbRoundRobin at ht
  simp only [p1, r1, e1, e2, Res.bind] at ht
  split at ht
  · rename_i hc
    have e : rr = tab := Res.ok.inj ht
    subst e
    have hmax1 : lbMax R l1 ≤ B * (1 + 1 / 2 ^ 52) := by
      unfold lbMax
      refine lbMax_le R l1 _ 0 (by positivity) (fun v hv => ?_)
      obtain ⟨i, hi⟩ := List.mem_iff_getElem?.1 hv
      have hil : i < w := by have := (List.getElem?_eq_some_iff.1 hi).1; omega
      rw [v1 i hil] at hi
      have e : rankLoad (tiles.zip ps) i = v := Option.some.inj hi
      rw [← e]
      exact (R.hi _ (Nat.cast_nonneg _)).trans (mul_le_mul_of_nonneg_right (hb i hil) (by norm_num))
    have hmem : rankLoad (tiles.zip rr) k ∈ l2 := List.mem_iff_getElem?.2 ⟨k, v2 k hk⟩
    have hmax2 : R.fl (rankLoad (tiles.zip rr) k) ≤ lbMax R l2 := (le_lbMax_gen R l2 0).2 _ hmem
    have hm0 : (0:ℚ) ≤ lbMax R l2 := (le_lbMax_gen R l2 0).1
    have q1 := R.lo (rankLoad (tiles.zip rr) k : ℚ) (Nat.cast_nonneg _)
    have q2 := R.lo (19 / 20 : ℚ) (by norm_num)
    have q3 : lbMax R l2 * R.fl (19 / 20) * (1 - 1 / 2 ^ 52) ≤ _ := R.lo _ (mul_nonneg hm0 (R.nonneg (by norm_num)))
    have q4 : lbMax R l2 * (19 / 20 * (1 - 1 / 2 ^ 52)) * (1 - 1 / 2 ^ 52) ≤ B * (1 + 1 / 2 ^ 52) :=
      le_trans (mul_le_mul_of_nonneg_right (mul_le_mul_of_nonneg_left q2 hm0) (by norm_num)) (q3.trans (hc.le.trans hmax1))
    generalize (rankLoad (tiles.zip rr) k : ℚ) = x at *
    norm_num at q1 q4 ⊢
    linarith
  · have e : ps = tab := Res.ok.inj ht
    subst e
    have := hb k hk
    linarith

/-- Specification: the pack index of a patch is absent or points at a patch that is not packed itself (a pack head). -/
def PackOk (ps : List Patch) : Prop :=
  ∀ (i : Nat) p, ps[i]? = some p → p.packNodeIndex ≠ u64max → ∃ q, ps[p.packNodeIndex]? = some q ∧ q.packNodeIndex = u64max

/-- Hypotheses on the global patch list of a scheduler step. -/
structure PatchListOk (w : Nat) (ps : List Patch) : Prop where
  ne : ps ≠ []
  loads : (ps.map (·.loadValue)).sum < 2 ^ 64
  count : ps.length < 2 ^ 64
  owners : ∀ p ∈ ps, p.nodeOwnerId < w
  packs : PackOk ps

/-- Specification of the owner table chosen for a patch list. -/
structure OwnerTable (hilb : V3 Nat → Nat) (w : Nat) (ps : List Patch) (own : List Nat) : Prop where
  len : own.length = ps.length
  valid : ∀ o ∈ own, o < w
  /-- packed patches follow the head of their pack -/
  packed : ∀ (i : Nat) p, ps[i]? = some p → p.packNodeIndex ≠ u64max → own[i]? = own[p.packNodeIndex]?
  /-- patches that are not packed are ordered along the curve -/
  curve : ∀ (i j : Nat) p q oi oj, ps[i]? = some p → ps[j]? = some q → p.packNodeIndex = u64max → q.packNodeIndex = u64max →
    own[i]? = some oi → own[j]? = some oj → hilb p.coord.cmin < hilb q.coord.cmin → oi ≤ oj

/-- **C33, change list.** `make_change_list` chooses a valid owner for every patch, keeps packs together, whatever the order in which the
parallel packing loop runs; the change list contains, in order, exactly the patches whose owner changes, with their id, index, old and
new owner, and no two messages of one sender carry the same tag. -/
theorem C33_change_list (R : F64Rnd) (S : SortImpl) (hilb : V3 Nat → Nat) (w : Nat) (ps : List Patch) (order : List Nat)
    (hw : 0 < w) (hw2 : w < 2 ^ 31) (h : PatchListOk w ps) (ho : order.Perm (List.range ps.length)) :
    ∃ ops own, makeChangeList R S hilb w order ps = .ok ops ∧ OwnerTable hilb w ps own ∧
      (∀ op ∈ ops, ∃ p, ps[op.patchIdx]? = some p ∧ op.patchId = p.idPatch ∧ op.ownerOld = p.nodeOwnerId ∧
        own[op.patchIdx]? = some op.ownerNew ∧ op.ownerNew ≠ op.ownerOld) ∧
      (∀ (i : Nat) p o, ps[i]? = some p → own[i]? = some o → o ≠ p.nodeOwnerId → ∃ op ∈ ops, op.patchIdx = i) ∧
      ops.Pairwise (fun a b => a.patchIdx < b.patchIdx) ∧
      ops.Pairwise (fun a b => a.ownerOld = b.ownerOld → a.tag ≠ b.tag) := by
  have hT : TilesOk (patchTiles hilb ps) := by
    refine ⟨?_, ?_, ?_⟩
    · intro e; exact h.ne (List.map_eq_nil_iff.1 e)
    · unfold patchTiles; rw [List.map_map]; exact h.loads
    · unfold patchTiles; rw [List.length_map]; exact h.count
  have hlen : (patchTiles hilb ps).length = ps.length := List.length_map _
  obtain ⟨bal, b1, ⟨b2, b3⟩, b4⟩ := C33_valid_owners R S w (patchTiles hilb ps) hw hw2 hT
  rw [hlen] at b2
  obtain ⟨own, o1, o2, o3⟩ := applyPacking_gen ps h.packs bal b2 order (ho.nodup_iff.2 List.nodup_range)
    (fun i hi => List.mem_range.1 (ho.mem_iff.1 hi)) bal b2 (fun _ _ _ _ => rfl)
  have o3' : ∀ (i : Nat) p, ps[i]? = some p → own[i]? = if p.packNodeIndex = u64max then bal[i]? else bal[p.packNodeIndex]? := by
    intro i p hi
    rw [o3 i p hi, if_pos (ho.mem_iff.2 (List.mem_range.2 (List.getElem?_eq_some_iff.1 hi).1))]
  have hvalid : ∀ o ∈ own, o < w := by
    intro o hom
    obtain ⟨i, hi⟩ := List.mem_iff_getElem?.1 hom
    have hl : i < own.length := (List.getElem?_eq_some_iff.1 hi).1
    have := o3' i (ps[i]'(by omega)) (List.getElem?_eq_getElem _)
    rw [hi] at this
    split at this
    · exact b3 o (List.mem_iff_getElem?.2 ⟨_, this.symm⟩)
    · exact b3 o (List.mem_iff_getElem?.2 ⟨_, this.symm⟩)
  obtain ⟨ops, c1, c2, -, c4⟩ := changeOps_spec w (ps.zip own) 0 (List.replicate w 0) List.length_replicate
    (fun x hx => ⟨hvalid _ (List.of_mem_zip hx).2, h.owners _ (List.of_mem_zip hx).1⟩)
  have hz : ∀ (i : Nat) p o, ((p, o), i) ∈ (ps.zip own).zipIdx 0 ↔ ps[i]? = some p ∧ own[i]? = some o := by
    intro i p o
    rw [List.mem_iff_getElem?]
    constructor
    · rintro ⟨n, hn⟩
      rw [List.getElem?_zipIdx] at hn
      cases hq : (ps.zip own)[n]? with
      | none => rw [hq] at hn; simp at hn
      | some q =>
        rw [hq] at hn
        simp only [Option.map_some, Nat.zero_add, Option.some.injEq, Prod.mk.injEq] at hn
        obtain ⟨rfl, rfl⟩ := hn
        exact List.getElem?_zip_eq_some.1 hq
    · rintro ⟨h1, h2⟩
      refine ⟨i, ?_⟩
      rw [List.getElem?_zipIdx, List.getElem?_zip_eq_some.2 (show ps[i]? = some (p, o).1 ∧ own[i]? = some (p, o).2 from ⟨h1, h2⟩)]
      simp
  refine ⟨ops, own, ?_, ⟨o2, hvalid, ?_, ?_⟩, ?_, ?_, ?_, ?_⟩
  · simp only [makeChangeList, b1, o1, c1, Res.bind]
  · intro i p hi hp
    obtain ⟨q, q1, q2⟩ := h.packs i p hi hp
    rw [o3' i p hi, if_neg hp, o3' _ q q1, if_pos q2]
  · intro i j p q oi oj hi hj hp hq hoi hoj hlt
    rw [o3' i p hi, if_pos hp] at hoi
    rw [o3' j q hj, if_pos hq] at hoj
    exact b4 i j ⟨hilb p.coord.cmin, p.loadValue⟩ ⟨hilb q.coord.cmin, q.loadValue⟩ oi oj (by simp [patchTiles, hi]) (by simp [patchTiles, hj]) hoi hoj hlt
  · intro op hop
    have := List.mem_map_of_mem (f := fun o : ChangeOp => (o.patchId, o.patchIdx, o.ownerOld, o.ownerNew)) hop
    rw [c2, List.mem_map] at this
    obtain ⟨⟨⟨p, o⟩, i⟩, hx, e⟩ := this
    rw [List.mem_filter] at hx
    simp only [Prod.mk.injEq, decide_eq_true_eq] at e hx
    obtain ⟨h1, h2⟩ := (hz i p o).1 hx.1
    obtain ⟨e1, e2, e3, e4⟩ := e
    refine ⟨p, by rw [← e2]; exact h1, e1.symm, e3.symm, by rw [← e2, ← e4]; exact h2, by rw [← e3, ← e4]; exact hx.2⟩
  · intro i p o hi hoi hne
    have hm : (p.idPatch, i, p.nodeOwnerId, o) ∈ ops.map (fun o : ChangeOp => (o.patchId, o.patchIdx, o.ownerOld, o.ownerNew)) := by
      rw [c2, List.mem_map]
      exact ⟨((p, o), i), List.mem_filter.2 ⟨(hz i p o).2 ⟨hi, hoi⟩, by simpa using hne⟩, rfl⟩
    obtain ⟨op, hop, e⟩ := List.mem_map.1 hm
    simp only [Prod.mk.injEq] at e
    exact ⟨op, hop, e.2.1⟩
  · have hpw : (ops.map (fun o : ChangeOp => (o.patchId, o.patchIdx, o.ownerOld, o.ownerNew))).Pairwise (fun a b => a.2.1 < b.2.1) := by
      rw [c2, List.pairwise_map]
      apply List.Pairwise.filter
      have : (((ps.zip own).zipIdx 0).map Prod.snd).Pairwise (· < ·) := by
        rw [List.zipIdx_map_snd]; exact List.pairwise_lt_range'
      exact List.pairwise_map.1 this
    exact (List.pairwise_map (f := fun o : ChangeOp => (o.patchId, o.patchIdx, o.ownerOld, o.ownerNew))).1 hpw
  · exact c4.imp (fun hab e => Nat.ne_of_lt (hab e))

/-! Concrete instances: a sort, tiles with zero and large loads, a packed patch list. -/
def mergeSortImpl : SortImpl where
  run l := l.mergeSort (fun a b => decide (a.1.ord ≤ b.1.ord))
  perm l := List.mergeSort_perm _ _
  sorted l := by
    have := List.pairwise_mergeSort (le := fun a b : LBTile × Nat => decide (a.1.ord ≤ b.1.ord))
      (fun a b c h1 h2 => by simp only [decide_eq_true_eq] at *; omega) (fun a b => by simp; omega) l
    simpa using this

example : TilesOk [⟨3, 10⟩, ⟨1, 0⟩, ⟨2, 25⟩, ⟨3, 1⟩] := ⟨by simp, by decide, by decide⟩
example : ∃ tab, loadBalance f64RNE mergeSortImpl 3 [⟨3, 10⟩, ⟨1, 0⟩, ⟨2, 25⟩, ⟨3, 1⟩] = .ok tab ∧ ValidOwners 3 4 tab ∧
    CurveMonotone [⟨3, 10⟩, ⟨1, 0⟩, ⟨2, 25⟩, ⟨3, 1⟩] tab :=
  C33_valid_owners _ _ 3 _ (by decide) (by decide) ⟨by simp, by decide, by decide⟩

def packEx : List Patch :=
  [⟨0, u64max, 5, ⟨⟨0, 0, 0⟩, ⟨3, 3, 3⟩⟩, 0⟩, ⟨1, 0, 2, ⟨⟨4, 0, 0⟩, ⟨7, 3, 3⟩⟩, 1⟩, ⟨2, u64max, 9, ⟨⟨0, 4, 0⟩, ⟨3, 7, 3⟩⟩, 1⟩]
example : PatchListOk 2 packEx := by
  refine ⟨by decide, by decide, by decide, by decide, ?_⟩
  intro i p hi hp
  rcases i with _ | _ | _ | i
  · simp [packEx] at hi; subst hi; exact absurd rfl hp
  · simp [packEx] at hi; subst hi; exact ⟨_, rfl, rfl⟩
  · simp [packEx] at hi; subst hi; exact absurd rfl hp
  · simp [packEx] at hi

end Shamrock
