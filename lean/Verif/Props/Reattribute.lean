import Verif.Props.LayerSerial
import Verif.Props.SerialTree
/-! Every object ends in the patch containing it (C41). -/
namespace Shamrock

/-- All the objects, over all ranks and patches. -/
def allObjects {α : Type} (world : List (RankData α)) : List (List (List α)) := world.flatMap fun d => d.flatMap fun kv => kv.2.objects

/-- The distributed patch data: every rank holds a map of layers with the fields of the layout, for patches it owns. -/
structure PatchWorld {α : Type} (rk : Nat → Nat) (lay : List Nat) (world : List (RankData α)) : Prop where
  maps : ∀ d ∈ world, MapOk d
  good : ∀ d ∈ world, ∀ kv ∈ d, kv.2.Good lay
  own : ∀ (r : Nat) d, world[r]? = some d → ∀ kv ∈ d, rk kv.1 = r
  ids : ∀ d ∈ world, ∀ kv ∈ d, kv.1 < u64max

/-- The exchanged data fits the limits of the communication layer. -/
structure FitsComm {T : Type} (rk : Nat → Nat) (mx dev : Nat) (ser : T → List Byte) (data : List (List ((Nat × Nat) × T))) : Prop where
  ranks : data.length < 2 ^ 31
  count : (data.map fun l => (splitSend rk ser l).2).flatten.length < 2 ^ 31
  bytes : ∀ l ∈ data, ∀ e ∈ l, (ser e.2).length < 2 ^ 61 ∧ 32 + alignRepr (ser e.2).length ≤ mx
  alloc : ∀ l ∈ data, ∀ cs, prepComms rk mx (splitSend rk ser l).2 = .ok cs → ∀ c ∈ cs, c.sz.total + 8 ≤ commMaxAlloc dev mx

theorem mapOk_nodup {V : Type} {d : List (Nat × V)} (h : MapOk d) : (d.map (·.1)).Nodup := by
  unfold List.Nodup
  rw [List.pairwise_map]
  exact h.imp (fun hlt => by omega)

theorem world_nodup {α : Type} {rk : Nat → Nat} {lay : List Nat} {world : List (RankData α)} (h : PatchWorld rk lay world) : (world.flatten.map (·.1)).Nodup := by
  rw [List.map_flatten, List.nodup_flatten]
  refine ⟨?_, ?_⟩
  · intro l hl
    obtain ⟨d, hd, rfl⟩ := List.mem_map.1 hl
    exact mapOk_nodup (h.maps d hd)
  · rw [List.pairwise_map, List.pairwise_iff_getElem]
    intro i j hi hj hij a ha hb
    obtain ⟨x, hx, rfl⟩ := List.mem_map.1 ha
    obtain ⟨y, hy, hxy⟩ := List.mem_map.1 hb
    have h1 := h.own i _ (List.getElem?_eq_getElem hi) x hx
    have h2 := h.own j _ (List.getElem?_eq_getElem hj) y hy
    rw [hxy] at h2
    omega

/-- Putting back the part of one key. -/
theorem put_back {β : Type} {V : Type} (F : Nat × V → List β) (q : Nat) : ∀ (P : List (Nat × V)), (P.map (·.1)).Nodup → ∀ kv ∈ P, kv.1 = q →
    (F kv ++ P.flatMap fun kv => if q = kv.1 then [] else F kv).Perm (P.flatMap F) := by
  intro P
  induction P with
  | nil => intro _ kv h; cases h
  | cons x P ih =>
    intro hn kv hk hq
    rw [List.map_cons, List.nodup_cons] at hn
    rw [List.flatMap_cons, List.flatMap_cons]
    rcases List.mem_cons.1 hk with rfl | hk
    · rw [if_pos hq.symm, List.nil_append]
      refine List.Perm.append_left _ ?_
      have : (P.flatMap fun kv => if q = kv.1 then [] else F kv) = P.flatMap F := by
        rw [List.flatMap_congr]
        intro y hy
        rw [if_neg]
        intro hc
        exact hn.1 (by rw [hq, hc]; exact List.mem_map_of_mem (f := (·.1)) hy)
      rw [this]
    · have hx : q ≠ x.1 := by
        intro hc
        exact hn.1 (by rw [← hc, ← hq]; exact List.mem_map_of_mem (f := (·.1)) hk)
      rw [if_neg hx]
      refine List.Perm.trans ?_ (List.Perm.append_left (F x) (ih hn.2 kv hk hq))
      rw [← List.append_assoc, ← List.append_assoc]
      exact List.Perm.append_right _ List.perm_append_comm

theorem filter_flatMap_eq {β γ : Type} (p : γ → Bool) (F : β → List γ) (l : List β) : (l.flatMap F).filter p = l.flatMap fun b => (F b).filter p := by
  induction l with
  | nil => rfl
  | cons a l ih => rw [List.flatMap_cons, List.filter_append, ih, List.flatMap_cons]

theorem flatMap_of_flatten {β γ : Type} (F : β → List γ) (L : List (List β)) : L.flatten.flatMap F = L.flatMap fun l => l.flatMap F := by
  induction L with
  | nil => rfl
  | cons a L ih => rw [List.flatten_cons, List.flatMap_append, ih, List.flatMap_cons]

theorem perm_flatMap_left {β γ : Type} (F G : β → List γ) (l : List β) (h : ∀ b ∈ l, (F b).Perm (G b)) : (l.flatMap F).Perm (l.flatMap G) := by
  induction l with
  | nil => exact .refl _
  | cons a l ih =>
    rw [List.flatMap_cons, List.flatMap_cons]
    exact (h a List.mem_cons_self).append (ih fun b hb => h b (List.mem_cons_of_mem _ hb))

/-- **C41.** `reatribute_patch_objects` on all ranks. For all ranks, patches, objects, execution orders of the kernels, iteration orders of the unordered
maps, communication schedules and buffering: if every object has a position whose owner (`dest`) is an existing patch, every rank passes every stage without
error, the communication never blocks and ends, and afterwards the ranks hold the same patches and every patch holds exactly (as a multiset) the
objects of the whole simulation whose position it owns. -/
theorem C41_reattribute {α F : Type} (rk : Nat → Nat) (lay : List Nat) (owner : V3 F → Res Nat) (pos : α → V3 F) (ipos : Nat) (hpos : lay[ipos]? = some 1)
    (world : List (RankData α)) (hw : PatchWorld rk lay world) (dest : List (List α) → Nat)
    (hd : ∀ o ∈ allObjects world, (∃ p, objPos ipos pos o = some p ∧ owner p = .ok (dest o)) ∧ ∃ d ∈ world, dest o ∈ d.map (·.1))
    (hsz : ∀ q, ∀ v ∈ lay, ((allObjects world).filter fun o => dest o == q).length * v < 2 ^ 32)
    (garbage : Nat → α) (order : Nat → Nat → Nat → Nat → Nat → List Nat) (ho : ∀ r c q k, GoodOrder (order r c q k))
    (perm : Nat → Nat → List (Nat × List Nat) → List (Nat × List Nat)) (hperm : ∀ r c g, (perm r c g).Perm g)
    (mx dev lim : Nat) (buf : Bool) (hlim : 0 < lim) (hmx : mx < 2 ^ 31) (h8 : 8 ≤ mx) :
    ∃ (nid : Nat → List (Nat × List Nat)) (d1 : Nat → RankData α) (ex : Nat → List ((Nat × Nat) × PLayer α)),
      (∀ (r : Nat) d, world[r]? = some d → computeNewPid owner pos ipos d = .ok (nid r) ∧ extractAll garbage (order r) (perm r) lay (nid r) d [] = .ok (d1 r, ex r)) ∧
      ∀ (ser : PLayer α → List Byte) (deser : List Byte → PLayer α), (∀ r < world.length, ∀ e ∈ ex r, e.2.Good lay → (∀ o ∈ e.2.objects, o ∈ allObjects world) → deser (ser e.2) = e.2) →
        FitsComm rk mx dev ser ((List.range world.length).map ex) →
        CommDelivers rk mx dev lim buf (((List.range world.length).map ex).map fun l => (splitSend rk ser l).2) fun r recv => ∀ d, world[r]? = some d →
          ∃ d2, insertRecv (joinRecv deser recv (splitSend rk ser (ex r)).1) (d1 r) = .ok d2 ∧ d2.map (·.1) = d.map (·.1) ∧
            ∀ kv ∈ d2, kv.2.Good lay ∧ kv.2.objects.Perm ((allObjects world).filter fun o => dest o == kv.1) := by
  have hne : lay ≠ [] := by rintro rfl; cases hpos
  have hobj : ∀ (r : Nat) d, world[r]? = some d → ∀ kv ∈ d, ∀ o ∈ kv.2.objects, o ∈ allObjects world := by
    intro r d hr kv hkv o ho
    exact List.mem_flatMap.2 ⟨d, List.mem_of_getElem? hr, List.mem_flatMap.2 ⟨kv, hkv, ho⟩⟩
  -- every rank
  have hrank : ∀ r : Nat, ∃ (n : List (Nat × List Nat)) (d1 : RankData α) (ex : List ((Nat × Nat) × PLayer α)), ∀ d, world[r]? = some d →
      computeNewPid owner pos ipos d = .ok n ∧ extractAll garbage (order r) (perm r) lay n d [] = .ok (d1, ex) ∧
      List.Forall₂ (fun (kv kv' : Nat × PLayer α) => kv'.1 = kv.1 ∧ kv'.2.Good lay ∧ kv'.2.objects = kv.2.objects.filter (fun o => dest o == kv.1)) d d1 ∧
      (∀ e ∈ ex, e.2.Good lay ∧ ∃ kv ∈ d, e.1.1 = kv.1 ∧ ∃ o ∈ kv.2.objects, dest o = e.1.2) ∧
      ∀ q, ((ex.filter fun e => e.1.2 == q).flatMap (fun e => e.2.objects)).Perm (d.flatMap fun kv => if q = kv.1 then [] else kv.2.objects.filter (fun o => dest o == q)) := by
    intro r
    cases hr : world[r]? with
    | none => exact ⟨[], [], [], fun d h => by cases h⟩
    | some d =>
      have hdm := List.mem_of_getElem? hr
      have hg := hw.good d hdm
      have hn := mapOk_nodup (hw.maps d hdm)
      have hc := computeNewPid_ok hne owner pos ipos hpos dest d hg (by
        intro kv hkv o ho
        obtain ⟨⟨p, a, b⟩, d', c1, c2⟩ := hd o (hobj r d hr kv hkv o ho)
        obtain ⟨kv', e1, e2⟩ := List.mem_map.1 c2
        have := hw.ids d' c1 kv' e1
        exact ⟨p, a, b, by omega⟩)
      by_cases hemp : d = []
      · subst hemp
        exact ⟨[], [], [], fun d h => by
          cases h
          exact ⟨rfl, rfl, .nil, by simp, by simp⟩⟩
      · have hlp : ∀ n ∈ lay, 0 < n := by
          obtain ⟨kv, hkv⟩ := List.exists_mem_of_ne_nil d hemp
          exact fun n hn => (good_size hne (hg kv hkv) n hn).1
        obtain ⟨d1, ex, E, t1, t2, t3, t4, t5⟩ := extractAll_ok hne hlp garbage (order r) (ho r) (perm r) (hperm r) dest (pidTable dest d) d [] hn (by
          intro kv hkv
          exact ⟨hg kv hkv, fun v hv => (good_size hne (hg kv hkv) v hv).2, fun h => mfind_pidTable dest d (hw.maps d hdm) kv.1 kv.2 hkv h⟩) (by simp)
        rw [List.nil_append] at t3
        refine ⟨pidTable dest d, d1, ex, fun d' h => ?_⟩
        cases h
        refine ⟨hc, t1, t2, fun e he => t4 e (t3.mem_iff.1 he), fun q => ?_⟩
        rw [← t5 q]
        exact (t3.filter _).flatMap_right _
  choose nid d1 ex hrk using hrank
  refine ⟨nid, d1, ex, fun r d hr => ⟨(hrk r d hr).1, (hrk r d hr).2.1⟩, ?_⟩
  intro ser deser hinv hfit
  have hget : ∀ (r : Nat) l, ((List.range world.length).map ex)[r]? = some l → r < world.length ∧ l = ex r := by
    intro r l h
    have hlt := (List.getElem?_eq_some_iff.1 h).1
    rw [List.length_map, List.length_range] at hlt
    rw [List.getElem?_map, List.getElem?_range hlt] at h
    simp only [Option.map_some, Option.some.injEq] at h
    exact ⟨hlt, h.symm⟩
  have hmem : ∀ l ∈ (List.range world.length).map ex, ∃ r, r < world.length ∧ l = ex r := by
    intro l hl
    obtain ⟨r, hr, rfl⟩ := List.mem_map.1 hl
    exact ⟨r, List.mem_range.1 hr, rfl⟩
  have hex : ∀ r < world.length, ∀ e ∈ ex r, e.2.Good lay ∧ rk e.1.1 = r ∧ e.1.1 < 2 ^ 64 ∧ ∃ (r' : Nat) (d' : RankData α), world[r']? = some d' ∧ e.1.2 ∈ d'.map (·.1) := by
    intro r hr e he
    obtain ⟨-, -, -, t4, -⟩ := hrk r _ (List.getElem?_eq_getElem hr)
    obtain ⟨a, kv, b, c, o, c1, c2⟩ := t4 e he
    obtain ⟨-, d', e1, e2⟩ := hd o (hobj r _ (List.getElem?_eq_getElem hr) kv b o c1)
    obtain ⟨r', hr'⟩ := List.getElem?_of_mem e1
    have hid := hw.ids _ (List.getElem_mem hr) kv b
    have : u64max < 2 ^ 64 := by decide
    exact ⟨a, by rw [c]; exact hw.own r _ (List.getElem?_eq_getElem hr) kv b, by rw [c]; omega, r', d', hr', by rw [← c2]; exact e2⟩
  have hown : ∀ (r : Nat) l, ((List.range world.length).map ex)[r]? = some l → ∀ e ∈ l, rk e.1.1 = r := by
    intro r l h e he
    obtain ⟨hlt, rfl⟩ := hget r l h
    exact (hex r hlt e he).2.1
  have hsplit : ∀ l : List ((Nat × Nat) × PLayer α), (splitSend rk ser l).2 = (l.filter fun e => !decide (rk e.1.1 = rk e.1.2)).map (fun e => (e.1, ser e.2)) := by
    intro l
    obtain ⟨a1, -, -⟩ := C22_transfer_all (fun a b => decide (rk a = rk b)) l [] (by simp [MMOk])
    unfold splitSend
    simp only
    rw [a1]
  have hin : ∀ l ∈ ((List.range world.length).map ex).map (fun l => (splitSend rk ser l).2), ∀ s ∈ l, ∃ (r : Nat) (e : (Nat × Nat) × PLayer α), r < world.length ∧ e ∈ ex r ∧ s = (e.1, ser e.2) := by
    intro l hl s hs
    obtain ⟨l', hl', rfl⟩ := List.mem_map.1 hl
    obtain ⟨r, hr, rfl⟩ := hmem l' hl'
    rw [hsplit] at hs
    obtain ⟨e, he, rfl⟩ := List.mem_map.1 hs
    exact ⟨r, e, hr, (List.mem_filter.1 he).1, rfl⟩
  have hcd : CommData rk (((List.range world.length).map ex).map fun l => (splitSend rk ser l).2) := by
    refine ⟨by rw [List.length_map]; exact hfit.ranks, hfit.count, ?_, ?_, ?_⟩
    · intro r l h e he
      rw [List.getElem?_map] at h
      cases h1 : ((List.range world.length).map ex)[r]? with
      | none => rw [h1] at h; cases h
      | some l0 =>
        rw [h1] at h
        simp only [Option.map_some, Option.some.injEq] at h
        subst h
        obtain ⟨hlt, rfl⟩ := hget r l0 h1
        rw [hsplit] at he
        obtain ⟨x, hx, rfl⟩ := List.mem_map.1 he
        exact (hex r hlt x (List.mem_filter.1 hx).1).2.1
    · intro l hl s hs
      obtain ⟨r, e, hr, he, rfl⟩ := hin l hl s hs
      obtain ⟨-, -, -, r', d', h1, h2⟩ := hex r hr e he
      obtain ⟨kv, k1, k2⟩ := List.mem_map.1 h2
      have := hw.own r' d' h1 kv k1
      rw [k2] at this
      simp only [List.length_map, List.length_range]
      rw [this]
      exact (List.getElem?_eq_some_iff.1 h1).1
    · intro l hl s hs
      obtain ⟨r, e, hr, he, rfl⟩ := hin l hl s hs
      obtain ⟨-, -, h3, r', d', h1, h2⟩ := hex r hr e he
      obtain ⟨kv, k1, k2⟩ := List.mem_map.1 h2
      have hid := hw.ids d' (List.mem_of_getElem? h1) kv k1
      have hu : u64max < 2 ^ 64 := by decide
      refine ⟨h3, by simp only; omega, ?_⟩
      exact (hfit.bytes (ex r) (List.mem_map.2 ⟨r, List.mem_range.2 hr, rfl⟩) e he).1
  have hC := (C25_serialize rk mx dev lim buf ser deser ((List.range world.length).map ex) (by
      intro l hl e he
      obtain ⟨r, hr, rfl⟩ := hmem l hl
      refine hinv r hr e he (hex r hr e he).1 ?_
      intro o ho
      have h5 := (hrk r _ (List.getElem?_eq_getElem hr)).2.2.2.2 e.1.2
      have hm := h5.mem_iff.1 (List.mem_flatMap.2 ⟨e, List.mem_filter.2 ⟨he, by simp⟩, ho⟩)
      obtain ⟨kv, k1, k2⟩ := List.mem_flatMap.1 hm
      split at k2
      · cases k2
      · exact hobj r _ (List.getElem?_eq_getElem hr) kv k1 o (List.mem_filter.1 k2).1) hown hcd hlim hmx h8 (fun l hl e he => (hfit.bytes l hl e he).2) hfit.alloc).2
  refine hC.mono (fun r hr recv hP d hrd => ?_)
  have hr : r < world.length := (List.getElem?_eq_some_iff.1 hrd).1
  obtain ⟨-, hJ, -⟩ := hP (ex r) (by rw [List.getElem?_map, List.getElem?_range hr]; rfl)
  generalize joinRecv deser recv (splitSend rk ser (ex r)).1 = J at hJ ⊢
  obtain ⟨-, -, hf2, -, -⟩ := hrk r d hrd
  have hdm := List.mem_of_getElem? hrd
  have hkeys := forall2_fst (fun _ _ h => h.1) hf2
  -- what a patch of this rank receives
  have hrecv : ∀ q ∈ d.map (·.1), ∀ kv ∈ d1 r, kv.1 = q →
      (kv.2.objects ++ (J.filter fun e => e.1.2 == q).flatMap fun e => e.2.objects).Perm ((allObjects world).filter fun o => dest o == q) := by
    intro q hq kv hkv hkq
    obtain ⟨kv0, k1, k2⟩ := List.mem_map.1 hq
    have hrq : rk q = r := by rw [← k2]; exact hw.own r d hrd kv0 k1
    obtain ⟨kv1, m1, m2, m3, m4⟩ := forall2_mem_right hf2 kv hkv
    -- J restricted to q
    have e1 : ((J.filter fun e => e.1.2 == q).flatMap fun e => e.2.objects).Perm
        (((((List.range world.length).map ex).flatten).filter fun e => e.1.2 == q).flatMap fun e => e.2.objects) := by
      refine ((hJ.filter _).trans ?_).flatMap_right _
      rw [List.filter_filter]
      refine List.Perm.of_eq (List.filter_congr ?_)
      intro e _
      by_cases h : e.1.2 = q
      · simp [h, hrq]
      · simp [h]
    have e2 : (((((List.range world.length).map ex).flatten).filter fun e => e.1.2 == q).flatMap fun e => e.2.objects).Perm
        (world.flatten.flatMap fun kv => if q = kv.1 then [] else kv.2.objects.filter (fun o => dest o == q)) := by
      have gen : ∀ n ≤ world.length, (((((List.range n).map ex).flatten).filter fun e => e.1.2 == q).flatMap fun e => e.2.objects).Perm
        ((world.take n).flatten.flatMap fun kv => if q = kv.1 then [] else kv.2.objects.filter (fun o => dest o == q)) := by
        intro n
        induction n with
        | zero => intro _; exact .refl _
        | succ n ih =>
          intro hn
          have ih := ih (by omega)
          rw [List.range_succ, List.map_append, List.flatten_append, List.filter_append, List.flatMap_append, List.take_succ,
            List.getElem?_eq_getElem (by omega), List.flatten_append, List.flatMap_append]
          refine ih.append ?_
          simp only [List.map_cons, List.map_nil, List.flatten_cons, List.flatten_nil, List.append_nil, Option.toList_some]
          exact (hrk n _ (List.getElem?_eq_getElem (by omega))).2.2.2.2 q
      have := gen world.length (Nat.le_refl _)
      rwa [List.take_length] at this
    have e3 : (allObjects world).filter (fun o => dest o == q) = world.flatten.flatMap fun kv => kv.2.objects.filter fun o => dest o == q := by
      unfold allObjects
      rw [filter_flatMap_eq, flatMap_of_flatten]
      congr 1
      funext d
      exact filter_flatMap_eq _ _ _
    rw [e3, m4]
    have hk1 : kv1.1 = q := by rw [← m2]; exact hkq
    rw [hk1]
    refine ((e1.trans e2).append_left _).trans ?_
    exact put_back (fun kv : Nat × PLayer α => kv.2.objects.filter fun o => dest o == q) q world.flatten (world_nodup hw) kv1 (List.mem_flatten.2 ⟨d, hdm, m1⟩) hk1
  obtain ⟨d2, i1, i2⟩ := insertRecv_ok hne J (d1 r) (by rw [hkeys]; exact mapOk_nodup (hw.maps d hdm)) (by
      intro e he
      have he := hJ.mem_iff.1 he
      obtain ⟨he1, he2⟩ := List.mem_filter.1 he
      obtain ⟨l, hl, hel⟩ := List.mem_flatten.1 he1
      obtain ⟨r0, hr0, rfl⟩ := hmem l hl
      obtain ⟨h1, -, -, r', d', h2, h3⟩ := hex r0 hr0 e hel
      refine ⟨h1, ?_⟩
      obtain ⟨kv, k1, k2⟩ := List.mem_map.1 h3
      have ho := hw.own r' d' h2 kv k1
      rw [k2] at ho
      have he2 : rk e.1.2 = r := by simpa using he2
      rw [ho] at he2
      subst he2
      rw [h2, Option.some.injEq] at hrd
      rw [hkeys, ← hrd]; exact h3) (by
      intro kv hkv
      obtain ⟨_, _, c⟩ := forall2_mem_right hf2 kv hkv
      exact c.2.1) (by
      intro kv hkv v hv
      have hk : kv.1 ∈ d.map (·.1) := by rw [← hkeys]; exact List.mem_map_of_mem (f := (·.1)) hkv
      have := (hrecv kv.1 hk kv hkv rfl).length_eq
      rw [List.length_append] at this
      rw [this]
      exact hsz kv.1 v hv)
  refine ⟨d2, i1, by rw [forall2_fst (fun _ _ h => h.1) i2, hkeys], ?_⟩
  intro kv hkv
  obtain ⟨kv1, m1, m2, m3, m4⟩ := forall2_mem_right i2 kv hkv
  refine ⟨m3, ?_⟩
  rw [m4, m2]
  exact hrecv kv1.1 (by rw [← hkeys]; exact List.mem_map_of_mem (f := (·.1)) m1) kv1 m1 rfl

/-- **C41, nothing lost.** If at the end the ranks hold the same patches and every patch holds the objects of the start that it owns, the multiset of all
objects is unchanged. -/
theorem C41_conserves {α : Type} (rk : Nat → Nat) (lay : List Nat) (world world2 : List (RankData α)) (hw : PatchWorld rk lay world) (dest : List (List α) → Nat)
    (hd : ∀ o ∈ allObjects world, ∃ d ∈ world, dest o ∈ d.map (·.1))
    (hk : world2.map (fun d => d.map (·.1)) = world.map fun d => d.map (·.1))
    (hp : ∀ d ∈ world2, ∀ kv ∈ d, kv.2.objects.Perm ((allObjects world).filter fun o => dest o == kv.1)) :
    (allObjects world2).Perm (allObjects world) := by
  have hn := world_nodup hw
  have hk' : world2.flatten.map (·.1) = world.flatten.map (·.1) := by rw [List.map_flatten, List.map_flatten, hk]
  rw [← hk'] at hn
  have hd' : ∀ o ∈ allObjects world, dest o ∈ world2.flatten.map (·.1) := by
    intro o ho
    obtain ⟨d, h1, h2⟩ := hd o ho
    rw [hk']
    obtain ⟨kv, k1, k2⟩ := List.mem_map.1 h2
    exact List.mem_map.2 ⟨kv, List.mem_flatten.2 ⟨d, h1, k1⟩, k2⟩
  have hp' : ∀ kv ∈ world2.flatten, kv.2.objects.Perm ((allObjects world).filter fun o => dest o == kv.1) := by
    intro kv hkv
    obtain ⟨d, h1, h2⟩ := List.mem_flatten.1 hkv
    exact hp d h1 kv h2
  have e : allObjects world2 = world2.flatten.flatMap fun kv => kv.2.objects := by
    unfold allObjects; rw [flatMap_of_flatten]
  rw [e]
  generalize world2.flatten = P at hn hd' hp'
  refine (perm_flatMap_left _ (fun kv : Nat × PLayer α => (allObjects world).filter fun o => dest o == kv.1) P hp').trans ?_
  generalize allObjects world = L at hd'
  clear hp' hp hk hk' e
  induction P generalizing L with
  | nil =>
    cases L with
    | nil => exact .refl _
    | cons o L => exact absurd (hd' o List.mem_cons_self) (by simp)
  | cons kv P ih =>
    rw [List.map_cons, List.nodup_cons] at hn
    rw [List.flatMap_cons]
    have h1 := ih hn.2 (L.filter fun o => !(dest o == kv.1)) (by
      intro o ho
      obtain ⟨a, b⟩ := List.mem_filter.1 ho
      rcases List.mem_cons.1 (hd' o a) with h | h
      · simp [h] at b
      · exact h)
    have h2 : (P.flatMap fun kv' : Nat × PLayer α => (L.filter fun o => !(dest o == kv.1)).filter fun o => dest o == kv'.1) = P.flatMap fun kv' => L.filter fun o => dest o == kv'.1 := by
      apply List.flatMap_congr
      intro kv' hkv'
      rw [List.filter_filter]
      apply List.filter_congr
      intro o _
      have hne : kv'.1 ≠ kv.1 := by
        intro hc
        exact hn.1 (hc ▸ List.mem_map_of_mem (f := (·.1)) hkv')
      by_cases h : dest o = kv'.1
      · simp [h, hne]
      · simp [h]
    rw [h2] at h1
    exact (h1.append_left _).trans (List.filter_append_perm (fun o => dest o == kv.1) L)

/-- The reattribution, for every tree with the two invariants. -/
theorem reattribute_inv {α F : Type} [LinearOrder F] (A : MonoArith F) (fact dmin : V3 F) (smin : V3 Nat)
    (hf : A.goodFact fact.x ∧ A.goodFact fact.y ∧ A.goodFact fact.z) (t : PTree) (H : TInv t) (hL : TLev t) (hs : SplitsOk t) (hdj : RootsDisjoint t)
    (hri : RootsInRange smin t) (rs : List Nat) (hr : Enumerates rs t.roots) (hnd : rs.Nodup)
    (rk : Nat → Nat) (lay : List Nat) (pos : α → V3 F) (ipos : Nat) (hpos : lay[ipos]? = some 1)
    (world : List (RankData α)) (hw : PatchWorld rk lay world)
    (hin : ∀ o ∈ allObjects world, ∃ p r n, objPos ipos pos o = some p ∧ t.roots r = true ∧ t.tree r = some n ∧ Contains A fact dmin smin p n)
    (hleaf : ∀ l k, t.leafKey l = true → t.tree l = some k → ∃ d ∈ world, k.linked ∈ d.map (·.1))
    (hsz : ∀ v ∈ lay, (allObjects world).length * v < 2 ^ 32)
    (garbage : Nat → α) (order : Nat → Nat → Nat → Nat → Nat → List Nat) (ho : ∀ r c q k, GoodOrder (order r c q k))
    (perm : Nat → Nat → List (Nat × List Nat) → List (Nat × List Nat)) (hperm : ∀ r c g, (perm r c g).Perm g)
    (mx dev lim : Nat) (buf : Bool) (hlim : 0 < lim) (hmx : mx < 2 ^ 31) (h8 : 8 ≤ mx) :
    ∃ (s : SSt F) (ids : List Nat) (dest : List (List α) → Nat), serBuild (domainBox A fact dmin smin) t rs = .ok (s, ids) ∧
      (∀ o ∈ allObjects world, ∃ p l k, objPos ipos pos o = some p ∧ t.leafKey l = true ∧ t.tree l = some k ∧ Contains A fact dmin smin p k ∧ k.linked = dest o) ∧
      ∃ (nid : Nat → List (Nat × List Nat)) (d1 : Nat → RankData α) (ex : Nat → List ((Nat × Nat) × PLayer α)),
      (∀ (r : Nat) d, world[r]? = some d → computeNewPid (fun p => patchOwner s ids p) pos ipos d = .ok (nid r) ∧ extractAll garbage (order r) (perm r) lay (nid r) d [] = .ok (d1 r, ex r)) ∧
      ∀ (ser : PLayer α → List Byte) (deser : List Byte → PLayer α), (∀ r < world.length, ∀ e ∈ ex r, e.2.Good lay → (∀ o ∈ e.2.objects, o ∈ allObjects world) → deser (ser e.2) = e.2) →
        FitsComm rk mx dev ser ((List.range world.length).map ex) →
        CommDelivers rk mx dev lim buf (((List.range world.length).map ex).map fun l => (splitSend rk ser l).2) fun r recv => ∀ d, world[r]? = some d →
          ∃ d2, insertRecv (joinRecv deser recv (splitSend rk ser (ex r)).1) (d1 r) = .ok d2 ∧ d2.map (·.1) = d.map (·.1) ∧
            ∀ kv ∈ d2, kv.2.Good lay ∧ kv.2.objects.Perm ((allObjects world).filter fun o => dest o == kv.1) := by
  obtain ⟨s, ids, K, e, -⟩ := serBuild_ok (domainBox A fact dmin smin) t H hL rs hr hnd
  have hx : ∀ o, ∃ q, o ∈ allObjects world → ∃ p l k, objPos ipos pos o = some p ∧ t.leafKey l = true ∧ t.tree l = some k ∧ Contains A fact dmin smin p k ∧ k.linked = q ∧
      patchOwner s ids p = .ok q := by
    intro o
    by_cases hm : o ∈ allObjects world
    · obtain ⟨p, r, n, a, b, c, d⟩ := hin o hm
      obtain ⟨s', ids', l, k, h1, h2, h3, h4, -, h6⟩ := owner_inv A fact dmin smin hf t H hL hs hdj hri rs hr hnd p ⟨r, n, b, c, d⟩
      rw [e, Res.ok.injEq, Prod.mk.injEq] at h1
      obtain ⟨rfl, rfl⟩ := h1
      exact ⟨k.linked, fun _ => ⟨p, l, k, a, h2, h3, h4, rfl, h6⟩⟩
    · exact ⟨0, fun h => absurd h hm⟩
  choose dest hdest using hx
  refine ⟨s, ids, dest, e, fun o ho => ?_, ?_⟩
  · obtain ⟨p, l, k, h1, h2, h3, h4, h5, -⟩ := hdest o ho
    exact ⟨p, l, k, h1, h2, h3, h4, h5⟩
  · refine C41_reattribute rk lay (fun p => patchOwner s ids p) pos ipos hpos world hw dest (fun o ho => ?_) (fun q v hv => ?_) garbage order ho perm hperm mx dev lim buf hlim hmx h8
    · obtain ⟨p, l, k, h1, h2, h3, h4, h5, h6⟩ := hdest o ho
      refine ⟨⟨p, h1, h6⟩, ?_⟩
      rw [← h5]
      exact hleaf l k h2 h3
    · exact Nat.lt_of_le_of_lt (Nat.mul_le_mul_right v (List.length_filter_le _ _)) (hsz v hv)

/-- **C41, in space.** The same with the real point location: for every history of the patch tree, every rounding of the coordinate transform and every iteration
order of the roots, if every leaf is linked to an existing patch and every object lies in some root box, then after `reatribute_patch_objects` every
object is in the patch linked to the leaf whose half open box contains its position. -/
theorem C41_reattribute_tree {α F : Type} [LinearOrder F] (A : MonoArith F) (fact dmin : V3 F) (smin : V3 Nat)
    (hf : A.goodFact fact.x ∧ A.goodFact fact.y ∧ A.goodFact fact.z) (t : PTree) (h : THist PTree.init t) (hs : SplitsOk t) (hdj : RootsDisjoint t)
    (hri : RootsInRange smin t) (rs : List Nat) (hr : Enumerates rs t.roots) (hnd : rs.Nodup)
    (rk : Nat → Nat) (lay : List Nat) (pos : α → V3 F) (ipos : Nat) (hpos : lay[ipos]? = some 1)
    (world : List (RankData α)) (hw : PatchWorld rk lay world)
    (hin : ∀ o ∈ allObjects world, ∃ p r n, objPos ipos pos o = some p ∧ t.roots r = true ∧ t.tree r = some n ∧ Contains A fact dmin smin p n)
    (hleaf : ∀ l k, t.leafKey l = true → t.tree l = some k → ∃ d ∈ world, k.linked ∈ d.map (·.1))
    (hsz : ∀ v ∈ lay, (allObjects world).length * v < 2 ^ 32)
    (garbage : Nat → α) (order : Nat → Nat → Nat → Nat → Nat → List Nat) (ho : ∀ r c q k, GoodOrder (order r c q k))
    (perm : Nat → Nat → List (Nat × List Nat) → List (Nat × List Nat)) (hperm : ∀ r c g, (perm r c g).Perm g)
    (mx dev lim : Nat) (buf : Bool) (hlim : 0 < lim) (hmx : mx < 2 ^ 31) (h8 : 8 ≤ mx) :
    ∃ (s : SSt F) (ids : List Nat) (dest : List (List α) → Nat), serBuild (domainBox A fact dmin smin) t rs = .ok (s, ids) ∧
      (∀ o ∈ allObjects world, ∃ p l k, objPos ipos pos o = some p ∧ t.leafKey l = true ∧ t.tree l = some k ∧ Contains A fact dmin smin p k ∧ k.linked = dest o) ∧
      ∃ (nid : Nat → List (Nat × List Nat)) (d1 : Nat → RankData α) (ex : Nat → List ((Nat × Nat) × PLayer α)),
      (∀ (r : Nat) d, world[r]? = some d → computeNewPid (fun p => patchOwner s ids p) pos ipos d = .ok (nid r) ∧ extractAll garbage (order r) (perm r) lay (nid r) d [] = .ok (d1 r, ex r)) ∧
      ∀ (ser : PLayer α → List Byte) (deser : List Byte → PLayer α), (∀ r < world.length, ∀ e ∈ ex r, e.2.Good lay → (∀ o ∈ e.2.objects, o ∈ allObjects world) → deser (ser e.2) = e.2) →
        FitsComm rk mx dev ser ((List.range world.length).map ex) →
        CommDelivers rk mx dev lim buf (((List.range world.length).map ex).map fun l => (splitSend rk ser l).2) fun r recv => ∀ d, world[r]? = some d →
          ∃ d2, insertRecv (joinRecv deser recv (splitSend rk ser (ex r)).1) (d1 r) = .ok d2 ∧ d2.map (·.1) = d.map (·.1) ∧
            ∀ kv ∈ d2, kv.2.Good lay ∧ kv.2.objects.Perm ((allObjects world).filter fun o => dest o == kv.1) :=
  reattribute_inv A fact dmin smin hf t (h.inv TInv.init) h.lev hs hdj hri rs hr hnd rk lay pos ipos hpos world hw hin hleaf hsz garbage order ho perm hperm mx dev lim buf hlim hmx h8

/-- **C41, objects outside.** If on some rank the owner of an object's position is the error id, `compute_new_pid` throws before anything is moved. -/
theorem C41_outside_throws {α F : Type} (lay : List Nat) (owner : V3 F → Res Nat) (pos : α → V3 F) (ipos : Nat) (hpos : lay[ipos]? = some 1)
    (dest : List (List α) → Nat) (d : RankData α) (hg : ∀ kv ∈ d, kv.2.Good lay)
    (hd : ∀ kv ∈ d, ∀ o ∈ kv.2.objects, ∃ p, objPos ipos pos o = some p ∧ owner p = .ok (dest o))
    (hx : ∃ kv ∈ d, ∃ o ∈ kv.2.objects, dest o = u64max) :
    computeNewPid owner pos ipos d = .throws :=
  computeNewPid_throws (by rintro rfl; cases hpos) owner pos ipos hpos dest d hg hd hx

/-- The values of an object have the types of the layout. -/
def TypedObj (tys : List STy) (o : List (List (List Byte))) : Prop := List.Forall₂ (fun (t : STy) (c : List (List Byte)) => ∀ v ∈ c, v.length = t.sz) tys o

theorem buf_obj {f : PField (List Byte)} (hf : f.WF) (v : List Byte) (hv : v ∈ f.buf) : ∃ i < f.count, v ∈ f.obj i := by
  obtain ⟨j, hj, hje⟩ := List.getElem_of_mem hv
  have hlen : f.count * f.nvar = f.buf.length := Nat.div_mul_cancel hf.dvd
  have hp := hf.pos
  have hdiv : j / f.nvar < f.count := by rw [Nat.div_lt_iff_lt_mul hp]; omega
  refine ⟨j / f.nvar, hdiv, ?_⟩
  unfold PField.obj
  have hm : j % f.nvar < f.nvar := Nat.mod_lt _ hp
  have hdm := Nat.div_add_mod j f.nvar
  rw [Nat.mul_comm] at hdm
  apply List.mem_of_getElem? (i := j % f.nvar)
  rw [List.getElem?_take_of_lt hm, List.getElem?_drop, hdm, List.getElem?_eq_getElem hj, hje]

theorem typed_of_objects {tys : List STy} (htys : ∀ t ∈ tys, t.Ok) {lay : List Nat} (hlen : tys.length = lay.length) (hne : lay ≠ []) {l : PLayer (List Byte)} (hl : l.Good lay)
    (ho : ∀ o ∈ l.objects, TypedObj tys o) : l.Typed tys := by
  obtain ⟨h1, h2, -⟩ := good_count hne hl
  have hll : l.length = lay.length := by rw [← hl.1, List.length_map]
  refine forall2_of_getElem _ _ (by omega) fun k t f ht hf => ?_
  obtain ⟨w, c⟩ := h1 f (List.mem_of_getElem? hf)
  refine ⟨htys t (List.mem_of_getElem? ht), w, fun v hv => ?_⟩
  obtain ⟨i, hi, hvi⟩ := buf_obj w v hv
  have hob := ho (l.lobj i) (List.mem_of_getElem? (good_get hne hl i (by omega)))
  unfold TypedObj at hob
  have hk : (l.lobj i)[k]? = some (f.obj i) := by unfold PLayer.lobj; rw [List.getElem?_map, hf]; rfl
  have hkt := (List.getElem?_eq_some_iff.1 ht)
  have hkl := (List.getElem?_eq_some_iff.1 hk)
  have := (List.forall₂_iff_get.1 hob).2 k hkt.1 hkl.1
  simp only [List.get_eq_getElem] at this
  rw [hkt.2, hkl.2] at this
  exact this v hvi

/-- **C41, with the real serialization.** The condition `C41_reattribute` puts on the pair of serialization functions is met by `PatchDataLayer::serialize_buf`
and `deserialize_buf`, whatever the memory contents and schedules inside, for all layers below 2^32 bytes made of objects of the simulation. -/
theorem C41_serialization {lay : List Nat} (hne : lay ≠ []) (tys : List STy) (htys : ∀ t ∈ tys, t.Ok) (hlen : tys.length = lay.length) (world : List (RankData (List Byte)))
    (hty : ∀ o ∈ allObjects world, TypedObj tys o) (ser : PLayer (List Byte) → List Byte) (deser : List Byte → PLayer (List Byte)) (l : PLayer (List Byte))
    (hsize : layerBytes tys l + 8 < 2 ^ 32)
    (hser : ∃ env, layerSer env tys l = .ok (ser l)) (hdes : ∃ env junk, layerDeser env junk tys lay (ser l) = .ok (deser (ser l)))
    (hl : l.Good lay) (ho : ∀ o ∈ l.objects, o ∈ allObjects world) : deser (ser l) = l := by
  have ht := typed_of_objects htys hlen hne hl (fun o h => hty o (ho o h))
  obtain ⟨env, h1⟩ := hser
  obtain ⟨env', junk, h2⟩ := hdes
  obtain ⟨b, b1, -, b3⟩ := C50_layer_roundtrip tys l ht hsize env
  rw [h1, Res.ok.injEq] at b1
  have := b3 env' junk
  rw [hl.1, ← b1, h2, Res.ok.injEq] at this
  exact this

/-! ### Concrete instances -/

/-- Two ranks, three patches (one of them empty), objects of two values; the first value is the position. -/
def exWorld : List (RankData Byte) :=
  [[(3, [⟨1, [1, 200, 7]⟩, ⟨1, [10, 20, 30]⟩]), (4, [⟨1, []⟩, ⟨1, []⟩])], [(5, [⟨1, [100, 250]⟩, ⟨1, [40, 50]⟩])]]
def exRk (id : Nat) : Nat := if id = 5 then 1 else 0
def exPos (b : Byte) : V3 Int := ⟨b.toNat, 0, 0⟩
def exOwner (p : V3 Int) : Res Nat := .ok (if p.x < 64 then 3 else if p.x < 128 then 4 else 5)
def exDest (o : List (List Byte)) : Nat := let v := ((o.head?.bind (·.head?)).getD 0#8).toNat
  if v < 64 then 3 else if v < 128 then 4 else 5
def exSerL (l : PLayer Byte) : List Byte := l.flatMap (·.buf)
def exDeserL (b : List Byte) : PLayer Byte := [⟨1, b.take (b.length / 2)⟩, ⟨1, b.drop (b.length / 2)⟩]
/-- What the ranks send in this example. -/
def exSent : List (List ((Nat × Nat) × PLayer Byte)) := [[((3, 5), [⟨1, [200]⟩, ⟨1, [20]⟩])], [((5, 4), [⟨1, [100]⟩, ⟨1, [40]⟩])]]

/-- The hypotheses of `C41_reattribute` hold in the example, objects are sent in both directions, and the limits of the communication hold. -/
example : PatchWorld exRk [1, 1] exWorld ∧ (allObjects exWorld).length = 5 ∧
    (∀ o ∈ allObjects exWorld, (∃ p, objPos 0 exPos o = some p ∧ exOwner p = .ok (exDest o)) ∧ ∃ d ∈ exWorld, exDest o ∈ d.map (·.1)) ∧
    (∀ q, ∀ v ∈ [1, 1], ((allObjects exWorld).filter fun o => exDest o == q).length * v < 2 ^ 32) ∧
    (∀ r < 2, ∃ d n d1, exWorld[r]? = some d ∧ computeNewPid exOwner exPos 0 d = .ok n ∧
      extractAll (fun _ => 0#8) (fun _ _ _ n => List.range n) (fun _ g => g) [1, 1] n d [] = .ok (d1, (exSent[r]?).getD [])) ∧
    FitsComm exRk 1000 2000 exSerL exSent ∧ (∀ l ∈ exSent, ∀ e ∈ l, exDeserL (exSerL e.2) = e.2) := by
  have hall : allObjects exWorld = [[[1], [10]], [[200], [20]], [[7], [30]], [[100], [40]], [[250], [50]]] := by decide
  have lwf : ∀ l : PLayer Byte, l = [⟨1, [1, 200, 7]⟩, ⟨1, [10, 20, 30]⟩] ∨ l = [⟨1, []⟩, ⟨1, []⟩] ∨ l = [⟨1, [100, 250]⟩, ⟨1, [40, 50]⟩] → l.Good [1, 1] := by
    rintro l (rfl | rfl | rfl)
    · refine ⟨rfl, 3, ?_⟩
      intro f hf
      simp only [List.mem_cons, List.not_mem_nil, or_false] at hf
      rcases hf with rfl | rfl <;> exact ⟨⟨by decide, by decide, by decide⟩, by decide⟩
    · refine ⟨rfl, 0, ?_⟩
      intro f hf
      simp only [List.mem_cons, List.not_mem_nil, or_false] at hf
      rcases hf with rfl | rfl <;> exact ⟨⟨by decide, by decide, by decide⟩, by decide⟩
    · refine ⟨rfl, 2, ?_⟩
      intro f hf
      simp only [List.mem_cons, List.not_mem_nil, or_false] at hf
      rcases hf with rfl | rfl <;> exact ⟨⟨by decide, by decide, by decide⟩, by decide⟩
  refine ⟨⟨?_, ?_, ?_, ?_⟩, by rw [hall]; rfl, ?_, ?_, ?_, ⟨by decide, by decide, by decide, ?_⟩, by decide⟩
  · intro d hd
    simp only [exWorld, List.mem_cons, List.not_mem_nil, or_false] at hd
    rcases hd with rfl | rfl <;> simp [MapOk]
  · intro d hd kv hkv
    simp only [exWorld, List.mem_cons, List.not_mem_nil, or_false] at hd
    rcases hd with rfl | rfl
    · simp only [List.mem_cons, List.not_mem_nil, or_false] at hkv
      rcases hkv with rfl | rfl
      · exact lwf _ (Or.inl rfl)
      · exact lwf _ (Or.inr (Or.inl rfl))
    · simp only [List.mem_cons, List.not_mem_nil, or_false] at hkv
      subst hkv
      exact lwf _ (Or.inr (Or.inr rfl))
  · intro r d hr kv hkv
    match r, hr with
    | 0, hr => cases hr; revert kv; decide
    | 1, hr => cases hr; revert kv; decide
  · decide
  · intro o ho
    rw [hall] at ho
    simp only [List.mem_cons, List.not_mem_nil, or_false] at ho
    rcases ho with rfl | rfl | rfl | rfl | rfl <;> exact ⟨⟨_, rfl, rfl⟩, by decide⟩
  · intro q v hv
    have : v = 1 := by simpa using hv
    subst this
    have := List.length_filter_le (fun o => exDest o == q) (allObjects exWorld)
    rw [hall] at this ⊢
    simp only [List.length_cons, List.length_nil] at this
    omega
  · intro r hr
    have : r = 0 ∨ r = 1 := by omega
    rcases this with rfl | rfl
    · exact ⟨_, _, _, rfl, rfl, rfl⟩
    · exact ⟨_, _, _, rfl, rfl, rfl⟩
  · intro l hl cs hcs
    simp only [exSent, List.mem_cons, List.not_mem_nil, or_false] at hl
    rcases hl with rfl | rfl
    · have h2 : prepComms exRk 1000 (splitSend exRk exSerL [((3, 5), [⟨1, [200]⟩, ⟨1, [20]⟩])]).2 = .ok [⟨0, 1, ⟨32, 8⟩, [((3, 5), [200, 20])]⟩] := by decide +kernel
      rw [h2, Res.ok.injEq] at hcs
      subst hcs
      decide
    · have h2 : prepComms exRk 1000 (splitSend exRk exSerL [((5, 4), [⟨1, [100]⟩, ⟨1, [40]⟩])]).2 = .ok [⟨1, 0, ⟨32, 8⟩, [((5, 4), [100, 40])]⟩] := by decide +kernel
      rw [h2, Res.ok.injEq] at hcs
      subst hcs
      decide

/-- A typed layer of two fields (u32 and 16 bit pairs) with two objects; an empty one. -/
example : PLayer.Typed [⟨4, 1, 4⟩, ⟨2, 2, 2⟩] [⟨1, [[1, 2, 3, 4], [5, 6, 7, 8]]⟩, ⟨2, [[1, 1, 1, 1], [2, 2, 2, 2], [3, 3, 3, 3], [4, 4, 4, 4]]⟩] ∧
    layerBytes [⟨4, 1, 4⟩, ⟨2, 2, 2⟩] [⟨1, [[1, 2, 3, 4], [5, 6, 7, 8]]⟩, ⟨2, [[1, 1, 1, 1], [2, 2, 2, 2], [3, 3, 3, 3], [4, 4, 4, 4]]⟩] = 40 ∧
    PLayer.Typed [⟨4, 1, 4⟩] [⟨3, []⟩] ∧ layerBytes [⟨4, 1, 4⟩] [⟨3, []⟩] = 8 := by
  refine ⟨.cons ⟨by unfold STy.Ok; decide, ⟨by decide, by decide, by decide⟩, by decide⟩ (.cons ⟨by unfold STy.Ok; decide, ⟨by decide, by decide, by decide⟩, by decide⟩ .nil),
    by decide, .cons ⟨by unfold STy.Ok; decide, ⟨by decide, by decide, by decide⟩, by decide⟩ .nil, by decide⟩

end Shamrock
