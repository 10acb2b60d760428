import Verif.Model.Sched
import Verif.Props.Push
import Verif.Props.Gather
import Verif.Props.PatchTree
import Verif.Props.ChangeList
/-! Lemmas about the steps of the scheduler. -/
namespace Shamrock

attribute [local irreducible] u64max

/-! ### The index map, lists of patches -/

theorem gidx_fold (id : Nat) : ∀ (l : List (Patch × Nat)) (a : Nat), (∀ p ∈ l, p.1.idPatch ≠ id) →
    l.foldl (fun i p => if p.1.idPatch = id then p.2 else i) a = a := by
  intro l
  induction l with
  | nil => intro a _; rfl
  | cons x l ih =>
    intro a h
    rw [List.foldl_cons, if_neg (h x List.mem_cons_self)]
    exact ih a (fun p hp => h p (List.mem_cons_of_mem _ hp))

theorem gidx_aux : ∀ (g : List Patch) (k a i : Nat) (p : Patch), (g.map (·.idPatch)).Nodup → g[i]? = some p →
    (g.zipIdx k).foldl (fun i q => if q.1.idPatch = p.idPatch then q.2 else i) a = k + i := by
  intro g
  induction g with
  | nil => intro k a i p _ h; simp at h
  | cons x g ih =>
    intro k a i p hn h
    rw [List.map_cons, List.nodup_cons] at hn
    rw [List.zipIdx_cons, List.foldl_cons]
    cases i with
    | zero =>
      simp only [List.getElem?_cons_zero, Option.some.injEq] at h
      subst h
      simp only [if_true]
      rw [gidx_fold _ _ _ (fun q hq => ?_)]; rfl
      intro e
      have hq' : q.1 ∈ g := by
        obtain ⟨h1, h2, h3⟩ := List.mem_zipIdx (show (q.1, q.2) ∈ g.zipIdx (k + 1) from hq)
        rw [h3]; exact List.getElem_mem _
      exact hn.1 (by rw [← e]; exact List.mem_map_of_mem (f := (·.idPatch)) hq')
    | succ i =>
      rw [List.getElem?_cons_succ] at h
      rw [ih (k + 1) _ i p hn.2 h]; omega

/-- With distinct ids, the index map gives the index of each patch. -/
theorem gidx_eq {g : List Patch} (hn : (g.map (·.idPatch)).Nodup) {i : Nat} {p : Patch} (h : g[i]? = some p) : gidx g p.idPatch = i := by
  have := gidx_aux g 0 0 i p hn h
  rw [Nat.zero_add] at this
  exact this

theorem loadsOf_eq {g : List Patch} (hn : (g.map (·.idPatch)).Nodup) {p : Patch} (hp : p ∈ g) : loadsOf g p.idPatch = some p.loadValue := by
  unfold loadsOf
  rw [if_pos (List.any_eq_true.2 ⟨p, hp, by simp⟩)]
  obtain ⟨i, hi⟩ := List.mem_iff_getElem?.1 hp
  rw [gidx_eq hn hi, hi]; rfl

theorem patchesAt_ok (g : List Patch) : ∀ (is : List Nat) (ps : List Patch), List.Forall₂ (fun i p => g[i]? = some p) is ps → patchesAt g is = .ok ps := by
  intro is ps h
  induction h with
  | nil => rfl
  | cons a _ ih => simp only [patchesAt, a, ih, Res.bind]

theorem giveIds_length : ∀ (ps : List Patch) (n : Nat), (giveIds n ps).length = ps.length := by
  intro ps
  induction ps with
  | nil => intro n; rfl
  | cons p ps ih => intro n; simp [giveIds, ih]

theorem giveIds_ids : ∀ (ps : List Patch) (n : Nat), (giveIds n ps).map (·.idPatch) = List.range' n ps.length := by
  intro ps
  induction ps with
  | nil => intro n; rfl
  | cons p ps ih => intro n; simp [giveIds, ih, List.range'_succ]

theorem giveIds_map {β : Type} (f : Patch → β) (hf : ∀ (p : Patch) n, f { p with idPatch := n } = f p) : ∀ (ps : List Patch) (n : Nat), (giveIds n ps).map f = ps.map f := by
  intro ps
  induction ps with
  | nil => intro n; rfl
  | cons p ps ih => intro n; rw [giveIds, List.map_cons, List.map_cons, ih, hf]

/-! ### Maps -/

theorem addAll_spec {D : Type} : ∀ (kvs m : List (Nat × D)), MapOk m → (kvs.map (·.1)).Nodup → (∀ k ∈ kvs.map (·.1), mfind m k = none) →
    ∃ m', addAll kvs m = .ok m' ∧ MapOk m' ∧ ∀ k, mfind m' k = (mfind kvs k).or (mfind m k) := by
  intro kvs
  induction kvs with
  | nil => intro m hm _ _; exact ⟨m, rfl, hm, fun k => by simp [mfind]⟩
  | cons kv kvs ih =>
    obtain ⟨k, d⟩ := kv
    intro m hm hn hf
    rw [List.map_cons, List.nodup_cons] at hn
    obtain ⟨e1, e2, e3, -⟩ := memplace_spec m hm k d
    have hk : mfind m k = none := hf k List.mem_cons_self
    obtain ⟨m', a, b, c⟩ := ih (memplace m k d).1 e1 hn.2 (fun q hq => by
      rw [e3, if_neg (fun h => hn.1 (by rw [← h.1]; exact hq))]
      exact hf q (List.mem_cons_of_mem _ hq))
    refine ⟨m', ?_, b, fun q => ?_⟩
    · simp only [addAll, ddAddObj, e2, hk, Option.isNone_none, Bool.not_true, Bool.false_eq_true, if_false]
      exact a
    · rw [c, e3]
      simp only [mfind]
      by_cases hq : k = q
      · subst hq
        have : mfind kvs k = none := mfind_none.2 (fun x hx e => hn.1 (by rw [← e]; exact List.mem_map_of_mem (f := (·.1)) hx))
        rw [this]; simp [hk]
      · rw [if_neg hq, if_neg (fun h => hq h.1.symm)]

theorem eraseAll_spec {D : Type} : ∀ (ks : List Nat) (m : List (Nat × D)), MapOk m →
    MapOk (ks.foldl ddErase m) ∧ ∀ k, mfind (ks.foldl ddErase m) k = if k ∈ ks then none else mfind m k := by
  intro ks
  induction ks with
  | nil => intro m hm; exact ⟨hm, fun k => by simp⟩
  | cons q ks ih =>
    intro m hm
    obtain ⟨e1, e2, -⟩ := merase_spec m hm q
    obtain ⟨a, b⟩ := ih (ddErase m q) e1
    refine ⟨a, fun k => ?_⟩
    rw [List.foldl_cons, b]
    unfold ddErase
    rw [e2]
    by_cases h : k = q
    · subst h; simp
    · simp [h]

theorem findAll_ok {D : Type} (d : List (Nat × D)) : ∀ (ks : List Nat) (xs : List D), List.Forall₂ (fun k x => mfind d k = some x) ks xs → findAll d ks = .ok xs := by
  intro ks xs h
  induction h with
  | nil => rfl
  | cons a _ ih => simp only [findAll, a, ih, Res.bind]

theorem allRanks_ok {D : Type} (f : Nat → D → Res D) (g : Nat → D) (d : Nat → D) : ∀ (W : Nat), (∀ r < W, f r (d r) = .ok (g r)) →
    allRanks f W d = .ok (fun r => if r < W then g r else d r) := by
  intro W
  induction W with
  | zero => intro _; simp [allRanks]
  | succ n ih =>
    intro h
    simp only [allRanks, ih (fun r hr => h r (by omega)), h n (by omega), Res.bind]
    congr 1
    funext r
    unfold upd
    by_cases hr : r = n
    · subst hr; simp
    · rw [if_neg hr]
      show (if r < n then g r else d r) = _
      by_cases h2 : r < n
      · rw [if_pos h2, if_pos (show r < n + 1 by omega)]
      · rw [if_neg h2, if_neg (show ¬ r < n + 1 by omega)]

theorem insertAllInto_ok {α : Type} {lay : List Nat} (hne : lay ≠ []) : ∀ (xs : List (PLayer α)) (l : PLayer α), l.Good lay → (∀ x ∈ xs, x.Good lay) →
    (∀ v ∈ lay, (l.objects.length + (xs.flatMap PLayer.objects).length) * v < 2 ^ 32) →
    ∃ l', insertAllInto xs l = .ok l' ∧ l'.Good lay ∧ l'.objects = l.objects ++ xs.flatMap PLayer.objects := by
  intro xs
  induction xs with
  | nil => intro l hl _ _; exact ⟨l, rfl, hl, by simp⟩
  | cons x xs ih =>
    intro l hl hx hsz
    obtain ⟨l1, a1, a2, a3⟩ := good_insert hne hl (hx x List.mem_cons_self) (fun v hv => by
      have := hsz v hv
      rw [List.flatMap_cons, List.length_append] at this
      exact lt_of_le_of_lt (Nat.mul_le_mul_right _ (by omega)) this)
    obtain ⟨l2, b1, b2, b3⟩ := ih l1 a2 (fun y hy => hx y (List.mem_cons_of_mem _ hy)) (fun v hv => by
      have := hsz v hv
      rw [List.flatMap_cons, List.length_append] at this
      rw [a3, List.length_append]
      exact lt_of_le_of_lt (Nat.mul_le_mul_right _ (by omega)) this)
    refine ⟨l2, by simp only [insertAllInto, a1, Res.bind, b1], b2, by rw [b3, a3, List.flatMap_cons, List.append_assoc]⟩

/-! ### Data of the patches -/

/-- All the objects, over all ranks and patches. -/
def allObj {α : Type} (W : Nat) (data : Nat → RankData α) : List (List (List α)) := (List.range W).flatMap fun r => (data r).flatMap fun kv => kv.2.objects

/-- The objects of a patch of the list. -/
def patchObjs {α : Type} (data : Nat → RankData α) (p : Patch) : List (List (List α)) :=
  match mfind (data p.nodeOwnerId) p.idPatch with
  | some l => l.objects
  | none => []

theorem mfind_of_mem {V : Type} {m : List (Nat × V)} (hm : MapOk m) {kv : Nat × V} (h : kv ∈ m) : mfind m kv.1 = some kv.2 := by
  obtain ⟨v, hv⟩ := mfind_of_key m kv.1 (List.mem_map_of_mem h)
  have := mfind_mem' m kv.1 v hv
  have e : (kv.1, v) = kv := List.inj_on_of_nodup_map (mapOk_nodup hm) this h rfl
  rw [hv]
  exact congrArg some (congrArg Prod.snd e)

/-- The objects of the simulation are those of the patches of the list. -/
theorem owned_objs {α : Type} {W : Nat} {G : List Patch} {data : Nat → RankData α} (h : Owned W G data) : (allObj W data).Perm (G.flatMap (patchObjs data)) := by
  let ob : Nat × Nat → List (List (List α)) := fun k => match mfind (data k.1) k.2 with | some l => l.objects | none => []
  have e1 : allObj W data = ((List.range W).flatMap fun r => (data r).map fun kv => (r, kv.1)).flatMap ob := by
    unfold allObj
    rw [List.flatMap_assoc]
    apply List.flatMap_congr
    intro r hr
    rw [List.flatMap_map]
    apply List.flatMap_congr
    intro kv hkv
    simp only [ob]
    rw [mfind_of_mem (h.maps r (List.mem_range.1 hr)) hkv]
  have e2 : G.flatMap (patchObjs data) = (G.map fun p => (p.nodeOwnerId, p.idPatch)).flatMap ob := by
    rw [List.flatMap_map]; rfl
  rw [e1, e2]
  refine List.Perm.flatMap_right _ ((List.perm_ext_iff_of_nodup ?_ ?_).2 ?_)
  · rw [List.nodup_flatMap]
    constructor
    · intro r hr
      have := mapOk_nodup (h.maps r (List.mem_range.1 hr))
      have e : ((data r).map fun kv => (r, kv.1)) = ((data r).map (·.1)).map (fun k => (r, k)) := by rw [List.map_map]; rfl
      rw [e]
      exact this.map (fun a b e => congrArg Prod.snd e)
    · refine List.nodup_range.imp (fun {a b} hab => ?_)
      intro x hx hy
      obtain ⟨u, _, rfl⟩ := List.mem_map.1 hx
      obtain ⟨v, _, hv⟩ := List.mem_map.1 hy
      exact hab (congrArg Prod.fst hv).symm
  · have e : (G.map (·.idPatch)) = (G.map fun p => (p.nodeOwnerId, p.idPatch)).map Prod.snd := by rw [List.map_map]; rfl
    have := h.ids
    rw [e] at this
    exact List.Nodup.of_map _ this
  · rintro ⟨r, id⟩
    rw [List.mem_flatMap, List.mem_map]
    constructor
    · rintro ⟨r', hr, hx⟩
      obtain ⟨kv, hkv, he⟩ := List.mem_map.1 hx
      cases he
      obtain ⟨p, p1, p2, p3⟩ := h.only r (List.mem_range.1 hr) kv.1 kv.2 (mfind_of_mem (h.maps r (List.mem_range.1 hr)) hkv)
      exact ⟨p, p1, by rw [p2, p3]⟩
    · rintro ⟨p, hp, he⟩
      cases he
      obtain ⟨hlt, d, hd⟩ := h.owner p hp
      refine ⟨p.nodeOwnerId, List.mem_range.2 hlt, List.mem_map.2 ⟨(p.idPatch, d), mfind_mem' _ _ _ hd, rfl⟩⟩

/-- What holds of the patch data between the operations of the scheduler. `inBox c o`: the object `o` lies in the box `c`. -/
structure DInv {α : Type} (W : Nat) (lay : List Nat) (inBox : PatchCoord → List (List α) → Prop) (G : List Patch) (data : Nat → RankData α) : Prop where
  owned : Owned W G data
  good : ∀ r < W, ∀ id l, mfind (data r) id = some l → l.Good lay
  place : ∀ p ∈ G, ∀ l, mfind (data p.nodeOwnerId) p.idPatch = some l → ∀ o ∈ l.objects, inBox p.coord o

theorem DInv.perm {α : Type} {W : Nat} {lay : List Nat} {inBox : PatchCoord → List (List α) → Prop} {G G' : List Patch} {data : Nat → RankData α}
    (h : DInv W lay inBox G data) (hp : G.Perm G') : DInv W lay inBox G' data := by
  refine ⟨⟨h.owned.maps, (hp.map _).nodup_iff.1 h.owned.ids, fun p hq => h.owned.owner p (hp.mem_iff.2 hq), fun r hr id d hd => ?_⟩, h.good, fun p hq => h.place p (hp.mem_iff.2 hq)⟩
  obtain ⟨p, p1, p2⟩ := h.owned.only r hr id d hd
  exact ⟨p, hp.mem_iff.1 p1, p2⟩

/-- Replacing the patches `A`, all on rank `o`, by the patches `B` on the same rank. -/
theorem DInv.replace {α : Type} {W : Nat} {lay : List Nat} {inBox : PatchCoord → List (List α) → Prop} {A B R : List Patch} {data data' : Nat → RankData α}
    (h : DInv W lay inBox (A ++ R) data) (o : Nat) (ho : o < W) (hA : ∀ p ∈ A, p.nodeOwnerId = o) (hB : ∀ p ∈ B, p.nodeOwnerId = o)
    (hBn : (B.map (·.idPatch)).Nodup) (hBR : ∀ p ∈ B, ∀ q ∈ R, p.idPatch ≠ q.idPatch) (hm : MapOk (data' o))
    (hf : ∀ id, id ∉ B.map (·.idPatch) → mfind (data' o) id = if id ∈ A.map (·.idPatch) then none else mfind (data o) id)
    (hb : ∀ p ∈ B, ∃ l, mfind (data' o) p.idPatch = some l ∧ l.Good lay ∧ ∀ x ∈ l.objects, inBox p.coord x)
    (hd : ∀ r < W, r ≠ o → data' r = data r) :
    DInv W lay inBox (B ++ R) data' ∧
    ((A.flatMap (patchObjs data)).Perm (B.flatMap (patchObjs data')) → (allObj W data').Perm (allObj W data)) := by
  have hnd := h.owned.ids
  rw [List.map_append, List.nodup_append] at hnd
  obtain ⟨_, hRn, hAR⟩ := hnd
  have hRkeep : ∀ q ∈ R, mfind (data' q.nodeOwnerId) q.idPatch = mfind (data q.nodeOwnerId) q.idPatch := by
    intro q hq
    obtain ⟨hlt, -⟩ := h.owned.owner q (List.mem_append_right _ hq)
    by_cases e : q.nodeOwnerId = o
    · rw [e, hf, if_neg]
      · intro hin
        exact hAR _ hin _ (List.mem_map_of_mem (f := (·.idPatch)) hq) rfl
      · intro hin
        obtain ⟨p, hp, e2⟩ := List.mem_map.1 hin
        exact hBR p hp q hq e2
    · rw [hd _ hlt e]
  have hI : DInv W lay inBox (B ++ R) data' := by
    refine ⟨⟨?_, ?_, ?_, ?_⟩, ?_, ?_⟩
    · intro r hr
      by_cases e : r = o
      · rw [e]; exact hm
      · rw [hd r hr e]; exact h.owned.maps r hr
    · rw [List.map_append, List.nodup_append]
      refine ⟨hBn, hRn, ?_⟩
      intro a ha b hb e
      obtain ⟨p, hp, rfl⟩ := List.mem_map.1 ha
      obtain ⟨q, hq, rfl⟩ := List.mem_map.1 hb
      exact hBR p hp q hq e
    · intro p hp
      rcases List.mem_append.1 hp with hp | hp
      · obtain ⟨l, hl, -⟩ := hb p hp
        rw [hB p hp]
        exact ⟨ho, l, hl⟩
      · obtain ⟨hlt, d, hdd⟩ := h.owned.owner p (List.mem_append_right _ hp)
        exact ⟨hlt, d, by rw [hRkeep p hp]; exact hdd⟩
    · intro r hr id d hdd
      by_cases e : r = o
      · subst e
        by_cases hin : id ∈ B.map (·.idPatch)
        · obtain ⟨p, hp, rfl⟩ := List.mem_map.1 hin
          exact ⟨p, List.mem_append_left _ hp, rfl, hB p hp⟩
        · rw [hf id hin] at hdd
          by_cases hA2 : id ∈ A.map (·.idPatch)
          · rw [if_pos hA2] at hdd; cases hdd
          · rw [if_neg hA2] at hdd
            obtain ⟨p, p1, p2, p3⟩ := h.owned.only r hr id d hdd
            rcases List.mem_append.1 p1 with hp | hp
            · exact absurd (by rw [← p2]; exact List.mem_map_of_mem (f := (·.idPatch)) hp) hA2
            · exact ⟨p, List.mem_append_right _ hp, p2, p3⟩
      · rw [hd r hr e] at hdd
        obtain ⟨p, p1, p2, p3⟩ := h.owned.only r hr id d hdd
        rcases List.mem_append.1 p1 with hp | hp
        · exact absurd (p3.symm.trans (hA p hp)) e
        · exact ⟨p, List.mem_append_right _ hp, p2, p3⟩
    · intro r hr id l hl
      by_cases e : r = o
      · subst e
        by_cases hin : id ∈ B.map (·.idPatch)
        · obtain ⟨p, hp, rfl⟩ := List.mem_map.1 hin
          obtain ⟨l', hl', g, -⟩ := hb p hp
          rw [hl, Option.some.injEq] at hl'
          rw [hl']; exact g
        · rw [hf id hin] at hl
          by_cases hA2 : id ∈ A.map (·.idPatch)
          · rw [if_pos hA2] at hl; cases hl
          · rw [if_neg hA2] at hl
            exact h.good r hr id l hl
      · rw [hd r hr e] at hl
        exact h.good r hr id l hl
    · intro p hp l hl
      rcases List.mem_append.1 hp with hp | hp
      · obtain ⟨l', hl', -, g⟩ := hb p hp
        rw [hB p hp, hl', Option.some.injEq] at hl
        subst hl; exact g
      · rw [hRkeep p hp] at hl
        exact h.place p (List.mem_append_right _ hp) l hl
  refine ⟨hI, fun hp => ?_⟩
  refine (owned_objs hI.owned).trans (List.Perm.trans ?_ (owned_objs h.owned).symm)
  rw [List.flatMap_append, List.flatMap_append]
  have e : R.flatMap (patchObjs data') = R.flatMap (patchObjs data) := by
    apply List.flatMap_congr
    intro q hq
    unfold patchObjs
    rw [hRkeep q hq]
  rw [e]
  exact hp.symm.append_right _

end Shamrock
