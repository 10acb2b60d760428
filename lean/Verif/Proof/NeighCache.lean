import Verif.Model.NeighCache
import Verif.Proof.DTTScatter
import Verif.Proof.BVHBox
import Verif.Props.BVH
/-! Lemmas for C54: the neighbour cache. -/
namespace Shamrock

/-! ### The cache -/

theorem mapM_range'_seg {α : Type} (l : List α) (a : Nat) : ∀ len, a + len ≤ l.length →
    (List.range' a len).mapM (fun i => l[i]?) = some ((l.drop a).take len) := by
  intro len
  induction len generalizing a with
  | zero => intro _; simp
  | succ len ih =>
    intro h
    have ha : a < l.length := by omega
    rw [List.range'_succ, List.mapM_cons, ih (a + 1) (by omega), List.drop_eq_getElem_cons ha, List.take_succ_cons,
      List.getElem?_eq_getElem ha]
    rfl

theorem buildCache_ok (junk : Nat → Nat) (order : List Nat) (runs : List (List Nat)) (hne : 0 < runs.length)
    (hord : order.Perm (List.range runs.length)) (hlt : runs.flatten.length < 2 ^ 32) :
    ∃ c, buildCache junk order runs = some c ∧ c.neigh = runs.flatten ∧ c.sum.toNat = runs.flatten.length ∧
      ∀ (i : Nat) (r : List Nat), runs[i]? = some r → c.forEach i = some r := by
  obtain ⟨f1, f2⟩ := C14_fallback (runs.map (fun r => BitVec.ofNat 32 r.length))
  rw [List.length_map] at f1
  have hg : ∀ i < runs.length, ∃ v, (exclSumFallback (runs.map (fun r => BitVec.ofNat 32 r.length)))[i]? = some v ∧
      v.toNat = runOff runs i := by
    intro i hi
    refine ⟨_, f2 i (by simp; omega), ?_⟩
    have := exclSpec_runs runs [] i (by omega)
    rw [List.append_nil] at this
    rw [this, BitVec.toNat_ofNat, Nat.mod_eq_of_lt]
    have := runOff_le runs i
    omega
  have hcnt : ∀ (i : Nat) (r : List Nat), runs[i]? = some r → (runs.map (fun r => BitVec.ofNat 32 r.length))[i]? = some (BitVec.ofNat 32 r.length) := by
    intro i r h; rw [List.getElem?_map, h]; rfl
  have hadd : ∀ (i : Nat) (r : List Nat) (v : W32), runs[i]? = some r → v.toNat = runOff runs i →
      (v + BitVec.ofNat 32 r.length).toNat = runOff runs (i + 1) ∧ (BitVec.ofNat 32 r.length + v).toNat = runOff runs (i + 1) := by
    intro i r v hr hv
    have h1 := runOff_end runs i r hr
    have h2 := runOff_le runs (i + 1)
    have h3 : (BitVec.ofNat 32 r.length).toNat = r.length := by rw [BitVec.toNat_ofNat, Nat.mod_eq_of_lt]; omega
    rw [BitVec.toNat_add, BitVec.toNat_add, h3, hv]
    constructor <;> (rw [Nat.mod_eq_of_lt] <;> omega)
  obtain ⟨rl, hrl⟩ : ∃ r, runs[runs.length - 1]? = some r := ⟨_, List.getElem?_eq_getElem (by omega)⟩
  obtain ⟨v, hv, hvn⟩ := hg (runs.length - 1) (by omega)
  have hsum := (hadd _ rl v hrl hvn).2
  rw [show runs.length - 1 + 1 = runs.length by omega, runOff_total] at hsum
  unfold buildCache
  simp only [hcnt _ _ hrl, hv, Option.bind_eq_bind, Option.bind_some, hsum]
  obtain ⟨b, e, l, g, _⟩ := scatterRuns_ok runs _ hg order ((List.range runs.flatten.length).map junk)
    (hord.nodup_iff.2 List.nodup_range) (fun i hi => List.mem_range.1 (hord.mem_iff.1 hi)) (by simp)
  have hb : b = runs.flatten := by
    refine eq_flatten runs b (by rw [l]; simp) ?_
    intro i r hr j hj
    exact g i (hord.mem_iff.2 (List.mem_range.2 (List.getElem?_eq_some_iff.1 hr).1)) r hr j hj
  rw [e, Option.bind_some]
  refine ⟨_, rfl, hb, hsum, ?_⟩
  intro i r hr
  obtain ⟨o, ho, hon⟩ := hg i (List.getElem?_eq_some_iff.1 hr).1
  unfold ObjCache.forEach
  simp only [hcnt i r hr, ho, Option.bind_eq_bind, Option.bind_some]
  have h1 := runOff_end runs i r hr
  have h2 := runOff_le runs (i + 1)
  have hs := seg_flatten runs i r hr
  rw [(hadd i r o hr hon).1, hon, hb, mapM_range'_seg _ _ _ (by omega)]
  rw [seg] at hs
  rw [hs]

section
variable {F : Type} [LinearOrder F] {w : Nat}

theorem keepNeigh_ok (A : SphArith F) (xyz : List (V3 F)) (hpart : List F) (X : Nat → V3 F) (Hh : Nat → F) (n : Nat)
    (hx : ∀ i < n, xyz[i]? = some (X i)) (hh : ∀ i < n, hpart[i]? = some (Hh i)) (xa : V3 F) (ra : F) : ∀ l : List Nat, (∀ b ∈ l, b < n) →
    keepNeigh A xyz hpart xa ra l = some (l.filter fun b => A.interact (A.dist2 xa (X b)) ra (A.mul (Hh b) A.htol)) := by
  intro l
  induction l with
  | nil => intro _; rfl
  | cons b l ih =>
    intro h
    unfold keepNeigh
    rw [hx b (h b (by simp)), hh b (h b (by simp)), ih (fun c hc => h c (by simp [hc]))]
    simp only [Option.bind_eq_bind, Option.bind_some, Option.pure_def, List.filter_cons]

variable {n sb : Nat} {code : Nat → BitVec w} {sortMap redMap : List Nat} {nodes : List KNode} {T : KTree} {st : Nat → Nat}

theorem foldl_max_high (f : Nat → F) (small : F) : ∀ ids : List Nat, ids ≠ [] → (∀ i ∈ ids, small ≤ f i) →
    AxHigh f ids ((ids.map f).foldl max small) := by
  intro ids
  have key : ∀ (l : List Nat) (s : F), s ≤ (l.map f).foldl max s ∧ (∀ i ∈ l, f i ≤ (l.map f).foldl max s) ∧
      ((l.map f).foldl max s = s ∨ ∃ i ∈ l, f i = (l.map f).foldl max s) := by
    intro l
    induction l with
    | nil => intro s; exact ⟨le_refl _, by simp, Or.inl rfl⟩
    | cons a l ih =>
      intro s
      obtain ⟨h1, h2, h3⟩ := ih (max s (f a))
      simp only [List.map_cons, List.foldl_cons]
      refine ⟨le_trans (le_max_left _ _) h1, ?_, ?_⟩
      · intro i hi
        rcases List.mem_cons.1 hi with rfl | hi
        · exact le_trans (le_max_right _ _) h1
        · exact h2 i hi
      · rcases h3 with h3 | ⟨i, hi, h3⟩
        · rcases le_total s (f a) with hs | hs
          · right; exact ⟨a, by simp, by rw [h3, max_eq_right hs]⟩
          · left; rw [h3, max_eq_left hs]
        · right; exact ⟨i, by simp [hi], h3⟩
  intro hne hs
  obtain ⟨h1, h2, h3⟩ := key ids small
  refine ⟨h2, ?_⟩
  rcases h3 with h3 | h3
  · obtain ⟨a, ha⟩ := List.exists_mem_of_ne_nil ids hne
    refine ⟨a, ha, ?_⟩
    rw [h3]
    refine le_antisymm ?_ (hs a ha)
    rw [← h3]; exact h2 a ha
  · exact h3

theorem axHigh_max {f : Nat → F} {a b : List Nat} {u v : F} (hu : AxHigh f a u) (hv : AxHigh f b v) : AxHigh f (a ++ b) (max u v) :=
  axHigh_append hu hv

/-- The radius of every cell is the largest one of its objects, times the tolerance. -/
theorem rintField_ok (H : StructOk n sb code sortMap redMap nodes T st) (A : SphArith F) (small : F) (hpart : List F) (Hh : Nat → F)
    (hh : ∀ i < n, hpart[i]? = some (Hh i)) (hs : ∀ i < n, small ≤ Hh i) (scheds : List (List Nat)) (hd : sb ≤ scheds.length)
    (old : Nat → F) :
    ∃ buf, rintField A small hpart sortMap redMap nodes scheds old = some buf ∧ buf.length = 2 * nodes.length + 1 ∧
      ∀ S ∈ T.subtrees, ∃ v, buf[cellIdx nodes.length S.ref]? = some (A.mul v A.htol) ∧
        AxHigh Hh (S.leaves.flatMap (leafObjs sortMap st)) v := by
  have hl : ∀ k ≤ nodes.length, ((forEachInLeaf sortMap redMap k).bind fun ids => (ids.mapM fun i => hpart[i]?).map (List.foldl max small)) =
      some (((leafObjs sortMap st k).map Hh).foldl max small) ∧ AxHigh Hh (leafObjs sortMap st k) (((leafObjs sortMap st k).map Hh).foldl max small) := by
    intro k hk
    have hlt := mem_leafObjs_lt H k hk
    refine ⟨?_, foldl_max_high Hh small _ (leafObjs_ne H k hk) (fun i hi => hs i (hlt i hi))⟩
    rw [forEachInLeaf_ok H k hk, Option.bind_some, mapM_opt_map _ Hh _ (fun i hi => hh i (hlt i hi))]; rfl
  unfold rintField
  rw [mapM_range_some (nodes.length + 1) _ (fun k => ((leafObjs sortMap st k).map Hh).foldl max small)
    (fun k hk => (hl k (by omega)).1)]
  obtain ⟨m', h1, h2, h3⟩ := whole_propagate H.whole max scheds (by have := H.depth; omega)
    ((List.range nodes.length).map old ++ (List.range (nodes.length + 1)).map (fun k => ((leafObjs sortMap st k).map Hh).foldl max small))
    (fun k => ((leafObjs sortMap st k).map Hh).foldl max small) (by simp; omega) (by
      intro k hk
      rw [List.getElem?_append_right (by simp), List.length_map, List.length_range, Nat.add_sub_cancel_left, List.getElem?_map,
        List.getElem?_range (by omega)]; rfl)
  simp only [Option.bind_eq_bind, Option.bind_some, h1, Option.pure_def]
  refine ⟨_, rfl, by rw [List.length_map, h2]; simp; omega, ?_⟩
  intro S hS
  refine ⟨_, by rw [List.getElem?_map, h3 S hS]; rfl, ?_⟩
  exact value_prop max _ _ (AxHigh Hh) (fun a b u v => axHigh_append) S (fun k hk => (hl k (subtree_leaf_le H S hS k hk)).2)

theorem rtreeLeaves_ok (C : MCode w) (t : BVH F) (H : StructOk n (3 * C.bits) code t.sortMap t.redMap t.nodes T st)
    (accept : Nat → V3 F → V3 F → Bool) :
    rtreeLeaves C t accept = some ((foundLeaves t.nodes.length (T.visit t.nodes.length (boxCond t accept))).map (t.nodes.length + ·)) := by
  unfold rtreeLeaves
  rw [whole_traversal H.whole _ (by have := H.depth; omega)]
  simp only [Option.bind_eq_bind, Option.bind_some, Option.pure_def, Option.some.injEq]
  have key : ∀ ev : List TEvent, (∀ id, TEvent.found id ∈ ev → ∃ k, id = t.nodes.length + k) →
      (ev.filterMap fun
        | .found id => some id
        | .excluded _ => none) = (foundLeaves t.nodes.length ev).map (t.nodes.length + ·) := by
    intro ev
    induction ev with
    | nil => intro _; rfl
    | cons e ev ih =>
      intro h
      have ih' := ih (fun id hid => h id (List.mem_cons_of_mem _ hid))
      cases e with
      | found id =>
        obtain ⟨k, rfl⟩ := h id (by simp)
        simp only [List.filterMap_cons, ih', foundLeaves, Nat.add_sub_cancel_left, List.map_cons]
      | excluded id =>
        simp only [List.filterMap_cons, ih', foundLeaves]
  refine key _ ?_
  intro id hid
  obtain ⟨k, _, he⟩ := visit_ids _ _ T id hid
  exact ⟨k, he⟩

/-- Objects of distinct leaves are distinct. -/
theorem nc_leaf_unique (H : StructOk n sb code sortMap redMap nodes T st) (i k k' : Nat) (hk : k ≤ nodes.length) (hk' : k' ≤ nodes.length)
    (h : i ∈ leafObjs sortMap st k) (h' : i ∈ leafObjs sortMap st k') : k = k' := by
  have hdisj : ((List.range (nodes.length + 1)).flatMap (leafObjs sortMap st)).Nodup := (all_objs H).nodup_iff.2 List.nodup_range
  rw [List.nodup_flatMap] at hdisj
  by_contra hne
  have hp := hdisj.2
  rw [List.pairwise_iff_getElem] at hp
  rcases Nat.lt_or_gt_of_ne hne with hlt | hlt
  · have := hp k k' (by simp; omega) (by simp; omega) hlt
    simp only [List.getElem_range, Function.onFun] at this
    exact this h h'
  · have := hp k' k (by simp; omega) (by simp; omega) hlt
    simp only [List.getElem_range, Function.onFun] at this
    exact this h' h

theorem obj_leaf (H : StructOk n sb code sortMap redMap nodes T st) (i : Nat) (hi : i < n) :
    ∃ k ≤ nodes.length, i ∈ leafObjs sortMap st k := by
  obtain ⟨k, hk, hik⟩ := List.mem_flatMap.1 ((all_objs H).mem_iff.2 (List.mem_range.2 hi))
  rw [List.mem_range] at hk
  exact ⟨k, by omega, hik⟩

theorem found_nodup (H : StructOk n sb code sortMap redMap nodes T st) (cond : Nat → Bool) :
    (foundLeaves nodes.length (T.visit nodes.length cond)).Nodup :=
  (foundLeaves_sublist _ _ T).nodup (by rw [whole_leaves H.whole]; exact List.nodup_range)

theorem found_objs_nodup (H : StructOk n sb code sortMap redMap nodes T st) (cond : Nat → Bool) :
    ((foundLeaves nodes.length (T.visit nodes.length cond)).flatMap (leafObjs sortMap st)).Nodup := by
  have hs : ((foundLeaves nodes.length (T.visit nodes.length cond)).flatMap (leafObjs sortMap st)).Sublist
      ((List.range (nodes.length + 1)).flatMap (leafObjs sortMap st)) := by
    rw [← whole_leaves H.whole]
    exact sublist_flatMap _ (foundLeaves_sublist _ _ T)
  exact hs.nodup ((all_objs H).nodup_iff.2 List.nodup_range)

theorem found_le (H : StructOk n sb code sortMap redMap nodes T st) (cond : Nat → Bool) (k : Nat)
    (hk : k ∈ foundLeaves nodes.length (T.visit nodes.length cond)) : k ≤ nodes.length := by
  have := (foundLeaves_sublist _ _ T).mem hk
  rw [whole_leaves H.whole, List.mem_range] at this
  omega

/-- A leaf all of whose cells are accepted is found. -/
theorem found_of (H : StructOk n sb code sortMap redMap nodes T st) (cond : Nat → Bool) (k : Nat) (hk : k ≤ nodes.length)
    (h : ∀ S ∈ T.subtrees, k ∈ S.leaves → cond (cellIdx nodes.length S.ref) = true) :
    k ∈ foundLeaves nodes.length (T.visit nodes.length cond) :=
  (mem_foundLeaves nodes.length cond k T (by rw [whole_leaves H.whole]; exact List.nodup_range)
    (by rw [whole_leaves H.whole, List.mem_range]; omega)).2 h

/-- A found leaf is accepted. -/
theorem found_accepted (H : StructOk n sb code sortMap redMap nodes T st) (cond : Nat → Bool) (k : Nat)
    (h : k ∈ foundLeaves nodes.length (T.visit nodes.length cond)) : cond (nodes.length + k) = true := by
  have hk := found_le H cond k h
  have := (mem_foundLeaves nodes.length cond k T (by rw [whole_leaves H.whole]; exact List.nodup_range)
    (by rw [whole_leaves H.whole, List.mem_range]; omega)).1 h (.leaf k) (whole_subtree_leaf H.whole k hk) (by simp [KTree.leaves])
  simpa [KTree.ref, cellIdx, Nat.add_comm] using this

end

end Shamrock
