import Verif.Proof.AmrGhostLayer
/-! Proofs about the stages of one rank. -/
namespace Shamrock.Gz

variable {F : Type}

/-! ### Layers -/

theorem fields_append {α : Type} (g : Nat → GRec F → Nat → α) (rs : List (GRec F)) (garbage : Nat → α) (order : Nat → Nat → List Nat) (ho : ∀ k, GoodOrder (order k))
    (idxs : List Nat) (hi : ∀ i ∈ idxs, i < rs.length) (hl : idxs.length ≤ rs.length) : ∀ (ns : List Nat) (q k : Nat), (∀ n ∈ ns, 0 < n ∧ rs.length * n < 2 ^ 32) →
    PLayer.zipM (fun k f g => f.appendSubset garbage (order k) idxs idxs.length g) k (fieldsOf g rs q ns) (ns.map fun n => ⟨n, []⟩) =
      .ok (fieldsOf g (idxs.filterMap fun i => rs[i]?) q ns) := by
  intro ns
  induction ns with
  | nil => intro q k _; rfl
  | cons n ns ih =>
    intro q k h
    obtain ⟨h1, h2⟩ := h n List.mem_cons_self
    rw [fieldsOf, List.map_cons, PLayer.zipM, mkF_appendSubset n h1 (g q) rs h2 garbage (order k) (ho k) idxs hi hl, Res.ok_bind,
      ih (q + 1) (k + 1) fun m hm => h m (List.mem_cons_of_mem _ hm), Res.ok_bind, fieldsOf]
    rfl

theorem fields_insert {α : Type} (g : Nat → GRec F → Nat → α) (a b : List (GRec F)) : ∀ (ns : List Nat) (q k : Nat),
    PLayer.zipM (fun _ f g => pure (f.insert g)) k (fieldsOf g a q ns) (fieldsOf g b q ns) = .ok (fieldsOf g (a ++ b) q ns) := by
  intro ns
  induction ns with
  | nil => intro q k; rfl
  | cons n ns ih =>
    intro q k
    rw [fieldsOf, fieldsOf, PLayer.zipM, mkF_insert]
    show (PLayer.zipM _ (k + 1) _ _ >>= _) = _
    rw [ih (q + 1) (k + 1), Res.ok_bind, fieldsOf]
    rfl

theorem fields_each {α : Type} (g g' : Nat → GRec F → Nat → α) (rs rs' : List (GRec F)) (op : Nat → PField α → Res (PField α)) (full : List Nat)
    (hop : ∀ (j q : Nat) n, full[q]? = some n → op j (mkF n (g q) rs) = .ok (mkF n (g' q) rs')) : ∀ (ns : List Nat) (q j : Nat), full.drop q = ns →
    eachField op j (fieldsOf g rs q ns) = .ok (fieldsOf g' rs' q ns) := by
  intro ns
  induction ns with
  | nil => intro q j _; rfl
  | cons n ns ih =>
    intro q j h
    have hq : full[q]? = some n := by
      have : (full.drop q)[0]? = some n := by rw [h]; rfl
      rw [List.getElem?_drop, Nat.add_zero] at this
      exact this
    have hd : full.drop (q + 1) = ns := by
      rw [← List.drop_drop, h]; rfl
    rw [fieldsOf, eachField, hop j q n hq]
    dsimp only [Res.bind]
    rw [ih (q + 1) (j + 1) hd]
    rfl

theorem mkF_map {α : Type} (n : Nat) (g h : GRec F → Nat → α) (im : GRec F → GRec F) (rs : List (GRec F)) (he : ∀ r v, h (im r) v = g r v) :
    mkF n g rs = mkF n h (rs.map im) := by
  unfold mkF
  rw [List.map_map]
  congr 2
  refine List.map_congr_left fun r _ => ?_
  refine List.map_congr_left fun v _ => ?_
  exact (he r v).symm

theorem one_mkF {α : Type} (g : GRec F → α) (rs : List (GRec F)) : (⟨1, rs.map g⟩ : PField α) = mkF 1 (fun r _ => g r) rs := by
  unfold mkF
  congr 1
  induction rs with
  | nil => rfl
  | cons r rs ih => rw [List.map_cons, List.map_cons, List.flatten_cons, ← ih]; rfl

theorem layer_append (ly : GLayout) (hok : ly.Ok) (j : Junk F) (ord : Nat → Nat → List Nat) (ho : ∀ k, GoodOrder (ord k)) (rs : List (GRec F)) (hf : ly.Fits rs.length)
    (idxs : List Nat) (hi : ∀ i ∈ idxs, i < rs.length) (hl : idxs.length ≤ rs.length) :
    (mkLayer ly rs).appendSubset j ord idxs (newLayer ly) = .ok (mkLayer ly (idxs.filterMap fun i => rs[i]?)) := by
  have h1 : rs.length * 1 < 2 ^ 32 := by rw [Nat.mul_one]; exact hf.1
  have pos : ∀ n ∈ ly.scal ++ ly.vecs, 0 < n ∧ rs.length * n < 2 ^ 32 := fun n hn => ⟨by have := hok n hn; omega, hf.2 n hn⟩
  unfold GLayer.appendSubset mkLayer newLayer
  dsimp only
  rw [one_mkF, one_mkF, mkF_appendSubset 1 Nat.one_pos _ rs h1 j.grid (ord 0) (ho 0) idxs hi hl]
  dsimp only [Res.bind]
  rw [mkF_appendSubset 1 Nat.one_pos _ rs h1 j.grid (ord 1) (ho 1) idxs hi hl]
  dsimp only [Res.bind]
  unfold PLayer.appendSubset
  rw [fields_append (fun q (r : GRec F) => r.scal q) rs j.scal (fun q => ord (q + 2)) (fun k => ho _) idxs hi hl ly.scal 0 0 fun n hn => pos n (List.mem_append_left _ hn)]
  dsimp only [Res.bind]
  rw [fields_append (fun q (r : GRec F) => r.vecs q) rs j.vec (fun q => ord (q + 2)) (fun k => ho _) idxs hi hl ly.vecs 0 0 fun n hn => pos n (List.mem_append_right _ hn)]
  dsimp only [Res.bind]
  rw [one_mkF, one_mkF]

theorem layer_insert (ly : GLayout) (a b : List (GRec F)) : (mkLayer ly a).insertElements (mkLayer ly b) = .ok (mkLayer ly (a ++ b)) := by
  unfold GLayer.insertElements mkLayer PLayer.insertElements
  dsimp only
  rw [fields_insert (fun q (r : GRec F) => r.scal q) a b]
  dsimp only [Res.bind]
  rw [fields_insert (fun q (r : GRec F) => r.vecs q) a b]
  dsimp only [Res.bind]
  rw [one_mkF, one_mkF, one_mkF, one_mkF, mkF_insert, mkF_insert, one_mkF, one_mkF]

theorem newLayer_eq (ly : GLayout) : newLayer ly = mkLayer (F := F) ly [] := by
  have gen : ∀ {α : Type} (g : Nat → GRec F → Nat → α) (ns : List Nat) (q : Nat), (ns.map fun n => (⟨n, []⟩ : PField α)) = fieldsOf g [] q ns := by
    intro α g ns
    induction ns with
    | nil => intro q; rfl
    | cons n ns ih => intro q; rw [List.map_cons, fieldsOf, ih (q + 1)]; rfl
  unfold newLayer mkLayer
  rw [gen (fun q (r : GRec F) => r.scal q) ly.scal 0, gen (fun q (r : GRec F) => r.vecs q) ly.vecs 0]
  rfl

/-- Some axis on which vectors are to be transformed has a non zero tile number. -/
def turnOf (tv : TVec) (k : V3 Int) : Bool := decide ((k.x ≠ 0 ∧ tv.x) ∨ (k.y ≠ 0 ∧ tv.y) ∨ (k.z ≠ 0 ∧ tv.z))

theorem transformOne_ok [Mul F] [IntCast F] (ly : GLayout) (hok : ly.Ok) (mode : GMode) (sim : Box Int) (he : EvenSides sim) (tv : TVec) (ord : Nat → Nat → List Nat)
    (ho : ∀ i, GoodOrder (ord i)) (k : V3 Int) (rs : List (GRec F)) (hf : ly.Fits rs.length) (hb : ∀ r ∈ rs, Ordered r.box) :
    transformOne tv (pavOf mode sim) ord k (mkLayer ly rs) = .ok (mkLayer ly (rs.map (GRec.image ly mode sim (turnOf tv k) k))) := by
  have h1 : rs.length * 1 < 2 ^ 32 := by rw [Nat.mul_one]; exact hf.1
  unfold transformOne
  have hcnt : (mkLayer ly rs).bmin.objCnt = .ok rs.length := by
    show PField.objCnt (⟨1, rs.map (·.lo)⟩ : PField (V3 Int)) = _
    rw [one_mkF, objCnt_ok (mkF_wf 1 Nat.one_pos _ rs h1), mkF_count 1 Nat.one_pos]
  rw [hcnt]
  dsimp only [Res.bind]
  obtain ⟨lo', hi', b1, b2, b3, b4⟩ := boxes_ok (pavOf mode sim) k (ord 0 rs.length) (rs.map (·.lo)) (rs.map (·.hi)) ((ho 0 _).nodup_iff.2 List.nodup_range)
    (by rw [List.length_map, List.length_map]) (fun i hi => by rw [List.length_map]; exact List.mem_range.1 ((ho 0 _).mem_iff.1 hi))
  have hbox : ∀ r ∈ rs, (pavOf mode sim).fBox ⟨r.lo, r.hi⟩ k = imageBox mode sim r.box k := fun r hr => fBox_eq mode sim he _ (hb r hr) k
  have hall : ∀ i : Nat, i < rs.length → i ∈ ord 0 rs.length := fun i hi => (ho 0 _).mem_iff.2 (List.mem_range.2 hi)
  have elo : lo' = rs.map fun r => (imageBox mode sim r.box k).lower := by
    apply List.ext_getElem?
    intro i
    by_cases hi : i < rs.length
    · have q := (b4 i (rs[i]).lo (rs[i]).hi (by rw [List.getElem?_map, List.getElem?_eq_getElem hi]; rfl) (by rw [List.getElem?_map, List.getElem?_eq_getElem hi]; rfl)).1
      rw [q, if_pos (hall i hi), List.getElem?_map, List.getElem?_eq_getElem hi, hbox _ (List.getElem_mem hi)]
      rfl
    · rw [List.getElem?_eq_none (by rw [b2, List.length_map]; omega), List.getElem?_eq_none (by rw [List.length_map]; omega)]
  have ehi : hi' = rs.map fun r => (imageBox mode sim r.box k).upper := by
    apply List.ext_getElem?
    intro i
    by_cases hi : i < rs.length
    · have q := (b4 i (rs[i]).lo (rs[i]).hi (by rw [List.getElem?_map, List.getElem?_eq_getElem hi]; rfl) (by rw [List.getElem?_map, List.getElem?_eq_getElem hi]; rfl)).2
      rw [q, if_pos (hall i hi), List.getElem?_map, List.getElem?_eq_getElem hi, hbox _ (List.getElem_mem hi)]
      rfl
    · rw [List.getElem?_eq_none (by rw [b3, List.length_map]; omega), List.getElem?_eq_none (by rw [List.length_map]; omega)]
  have hfold : (ord 0 rs.length).foldlM (boxStep (pavOf mode sim) k) ((mkLayer ly rs).bmin.buf, (mkLayer ly rs).bmax.buf) = some (lo', hi') := b1
  rw [hfold, elo, ehi]
  dsimp only [Res.ofOpt, Res.bind]
  rw [cellPermut_eq mode sim he]
  have ep1 : applyPermut (ord 1) ((List.range 8).map (flipCell (signs mode k))) ⟨(mkLayer ly rs).bmin.nvar, rs.map fun r => (imageBox mode sim r.box k).lower⟩ =
      .ok (mkF 1 (fun (r : GRec F) _ => (imageBox mode sim r.box k).lower) rs) := by
    show applyPermut _ _ ⟨1, _⟩ = _
    rw [one_mkF (fun r : GRec F => (imageBox mode sim r.box k).lower), applyPermut_ok _ 1 (Or.inl rfl) _ rs h1 _ (ho 1)]
  have ep2 : applyPermut (ord 2) ((List.range 8).map (flipCell (signs mode k))) ⟨(mkLayer ly rs).bmax.nvar, rs.map fun r => (imageBox mode sim r.box k).upper⟩ =
      .ok (mkF 1 (fun (r : GRec F) _ => (imageBox mode sim r.box k).upper) rs) := by
    show applyPermut _ _ ⟨1, _⟩ = _
    rw [one_mkF (fun r : GRec F => (imageBox mode sim r.box k).upper), applyPermut_ok _ 1 (Or.inl rfl) _ rs h1 _ (ho 2)]
  rw [ep1]
  dsimp only
  rw [ep2]
  dsimp only
  have eb1 : mkF 1 (fun (r : GRec F) _ => (imageBox mode sim r.box k).lower) rs = ⟨1, (rs.map (GRec.image ly mode sim (turnOf tv k) k)).map (·.lo)⟩ := by
    rw [← one_mkF, List.map_map]; rfl
  have eb2 : mkF 1 (fun (r : GRec F) _ => (imageBox mode sim r.box k).upper) rs = ⟨1, (rs.map (GRec.image ly mode sim (turnOf tv k) k)).map (·.hi)⟩ := by
    rw [← one_mkF, List.map_map]; rfl
  rw [eb1, eb2]
  have es : eachField (fun q => applyPermut (ord (q + 3)) ((List.range 8).map (flipCell (signs mode k)))) 0 (mkLayer ly rs).scal =
      .ok (fieldsOf (fun q r => r.scal q) (rs.map (GRec.image ly mode sim (turnOf tv k) k)) 0 ly.scal) := by
    refine fields_each (fun q r => r.scal q) (fun q r => r.scal q) rs _ _ ly.scal (fun jj q n hq => ?_) ly.scal 0 0 rfl
    have hm : n ∈ ly.scal ++ ly.vecs := List.mem_append_left _ (List.mem_of_getElem? hq)
    rw [applyPermut_ok _ n (hok n hm) _ rs (hf.2 n hm) _ (ho _)]
    congr 1
    refine mkF_map n _ _ _ rs fun r v => ?_
    show r.scal q (reidx _ (ly.scal.getD q 1) v) = _
    rw [List.getD_eq_getElem?_getD, hq]
    rfl
  have ev : eachField (fun q => applyPermut (ord (q + 3)) ((List.range 8).map (flipCell (signs mode k)))) 0 (mkLayer ly rs).vecs =
      .ok (fieldsOf (fun q r => r.vecs q) (rs.map (GRec.image ly mode sim false k)) 0 ly.vecs) := by
    refine fields_each (fun q r => r.vecs q) (fun q r => r.vecs q) rs _ _ ly.vecs (fun jj q n hq => ?_) ly.vecs 0 0 rfl
    have hm : n ∈ ly.scal ++ ly.vecs := List.mem_append_right _ (List.mem_of_getElem? hq)
    rw [applyPermut_ok _ n (hok n hm) _ rs (hf.2 n hm) _ (ho _)]
    congr 1
    refine mkF_map n _ _ _ rs fun r v => ?_
    show r.vecs q (reidx _ (ly.vecs.getD q 1) v) = _
    rw [List.getD_eq_getElem?_getD, hq]
    rfl
  rw [es]
  dsimp only [Res.bind]
  rw [ev]
  dsimp only [Res.bind]
  by_cases ht : (k.x ≠ 0 ∧ tv.x) ∨ (k.y ≠ 0 ∧ tv.y) ∨ (k.z ≠ 0 ∧ tv.z)
  · have ht' : turnOf tv k = true := decide_eq_true ht
    rw [if_pos ht, mulVec_eq mode sim he]
    have em : eachField (fun q => transformVec (ord (q + 3)) (signs mode k)) 0 (fieldsOf (fun q r => r.vecs q) (rs.map (GRec.image ly mode sim false k)) 0 ly.vecs) =
        .ok (fieldsOf (fun q r => r.vecs q) (rs.map (GRec.image ly mode sim (turnOf tv k) k)) 0 ly.vecs) := by
      refine fields_each (fun q r => r.vecs q) (fun q r => r.vecs q) _ _ _ ly.vecs (fun jj q n hq => ?_) ly.vecs 0 0 rfl
      have hm : n ∈ ly.scal ++ ly.vecs := List.mem_append_right _ (List.mem_of_getElem? hq)
      have hn : 0 < n := by have := hok n hm; omega
      rw [transformVec_ok _ n hn _ _ (by rw [List.length_map]; exact hf.2 n hm) _ (ho _)]
      congr 1
      unfold mkF
      rw [List.map_map, List.map_map]
      congr 2
      refine List.map_congr_left fun r _ => ?_
      refine List.map_congr_left fun v _ => ?_
      show mulCompo (signs mode k) (r.vecs q (reidx (signs mode k) (ly.vecs.getD q 1) v)) = if turnOf tv k = true then _ else _
      rw [if_pos ht']
    rw [em]
    rfl
  · have ht' : turnOf tv k = false := decide_eq_false ht
    rw [if_neg ht, ht']
    rfl

/-! ### Indices -/

theorem mask_ok (rs : List (GRec F)) (vol : Box Int) : ∀ (order : List Nat) (mask : List W32), mask.length = rs.length → (∀ i ∈ order, i < rs.length) →
    ∃ mask', order.foldlM (maskWrite (rs.map (·.lo)) (rs.map (·.hi)) vol) mask = some mask' ∧ mask'.length = rs.length ∧
      ∀ (i : Nat) r, rs[i]? = some r → mask'[i]? = if i ∈ order then some (if (r.box.intersect vol).isNotEmpty then 1 else 0) else mask[i]? := by
  intro order
  induction order with
  | nil => intro mask hl _; exact ⟨mask, rfl, hl, fun i r _ => by rw [if_neg List.not_mem_nil]⟩
  | cons i is ih =>
    intro mask hl hlt
    have hi := hlt i List.mem_cons_self
    have e : maskWrite (rs.map (·.lo)) (rs.map (·.hi)) vol mask i = some (mask.set i (if ((rs[i]).box.intersect vol).isNotEmpty then 1 else 0)) := by
      unfold maskWrite
      rw [List.getElem?_map, List.getElem?_map, List.getElem?_eq_getElem hi]
      show wr mask i _ = _
      unfold wr
      rw [if_pos (by omega)]
      rfl
    obtain ⟨m', h1, h2, h3⟩ := ih (mask.set i (if ((rs[i]).box.intersect vol).isNotEmpty then 1 else 0)) (by rw [List.length_set]; exact hl)
      fun j hj => hlt j (List.mem_cons_of_mem _ hj)
    refine ⟨m', by rw [List.foldlM_cons, e]; exact h1, h2, fun j r hr => ?_⟩
    rw [h3 j r hr]
    by_cases hm : j ∈ is
    · rw [if_pos hm, if_pos (List.mem_cons_of_mem _ hm)]
    · rw [if_neg hm]
      by_cases hji : j = i
      · subst hji
        rw [List.getElem?_eq_getElem hi, Option.some.injEq] at hr
        rw [if_pos List.mem_cons_self, List.getElem?_set_self (by omega), hr]
      · have hn : j ∉ i :: is := by rw [List.mem_cons]; simp [hji, hm]
        rw [if_neg hn, List.getElem?_set_ne (Ne.symm hji)]

theorem idsInGhost_ok (j : Junk F) (ord : Nat → Nat → List Nat) (ho : ∀ i, GoodOrder (ord i)) (rs : List (GRec F)) (hl : rs.length < 2 ^ 32) (vol : Box Int) :
    idsInGhost j ord (rs.map (·.lo)) (rs.map (·.hi)) vol rs.length = .ok (selIdx (fun r => (r.box.intersect vol).isNotEmpty) rs) := by
  unfold idsInGhost
  by_cases hz : 0 < rs.length
  · rw [if_pos hz]
    obtain ⟨m, h1, h2, h3⟩ := mask_ok rs vol (ord 0 rs.length) ((List.range rs.length).map j.mask) (by rw [List.length_map, List.length_range])
      (fun i hi => List.mem_range.1 ((ho 0 _).mem_iff.1 hi))
    rw [h1]
    show Res.ofOpt (streamCompact m j.idx (ord 1 rs.length)) = _
    have hget : ∀ (i : Nat) r, rs[i]? = some r → m[i]? = some (if (r.box.intersect vol).isNotEmpty then 1 else 0) := by
      intro i r hr
      rw [h3 i r hr, if_pos ((ho 0 _).mem_iff.2 (List.mem_range.2 (List.getElem?_eq_some_iff.1 hr).1))]
    rw [C15_stream_compact m (fun f hf => by
      obtain ⟨i, hi⟩ := List.mem_iff_getElem?.1 hf
      have hlt := (List.getElem?_eq_some_iff.1 hi).1
      rw [hget i _ (List.getElem?_eq_getElem (by omega)), Option.some.injEq] at hi
      rw [← hi]
      split <;> simp) (by omega) j.idx (ord 1 rs.length) (by rw [h2]; exact ho 1 _)]
    show Res.ok _ = _
    congr 1
    unfold flaggedIdx selIdx
    rw [h2]
    refine List.filter_congr fun i hi => ?_
    have hi := List.mem_range.1 hi
    have := hget i _ (List.getElem?_eq_getElem hi)
    rw [List.getElem?_eq_getElem hi, Option.map_some, Option.getD_some]
    cases hc : (rs[i].box.intersect vol).isNotEmpty
    · rw [hc] at this
      simp [this]
    · rw [hc] at this
      simp [this]
  · rw [if_neg hz]
    have : rs = [] := List.eq_nil_of_length_eq_zero (by omega)
    subst this
    rfl

/-! ### Containers -/

theorem mmOk_map {A B : Type} (f : (Nat × Nat) × A → B) (l : List ((Nat × Nat) × A)) (h : MMOk l) : MMOk (l.map fun e => (e.1, f e)) := by
  unfold MMOk at h ⊢
  rw [List.pairwise_map]
  exact h

theorem addEach_ok {A B : Type} (op : Nat → (Nat × Nat) × A → Res ((Nat × Nat) × B)) (f : (Nat × Nat) × A → B) : ∀ (l : List ((Nat × Nat) × A)) (i : Nat) (acc : List ((Nat × Nat) × B)),
    (∀ i, ∀ e ∈ l, op i e = .ok (e.1, f e)) → addEach op i l acc = .ok ((l.map fun e => (e.1, f e)).foldl mmEmplace acc) := by
  intro l
  induction l with
  | nil => intro i acc _; rfl
  | cons e l ih =>
    intro i acc h
    rw [addEach, h i e List.mem_cons_self]
    dsimp only [Res.bind]
    rw [ih (i + 1) _ fun i e he => h i e (List.mem_cons_of_mem _ he), List.map_cons, List.foldl_cons]

theorem addEach_nil {A B : Type} (op : Nat → (Nat × Nat) × A → Res ((Nat × Nat) × B)) (f : (Nat × Nat) × A → B) (l : List ((Nat × Nat) × A)) (hm : MMOk l)
    (h : ∀ i, ∀ e ∈ l, op i e = .ok (e.1, f e)) : addEach op 0 l [] = .ok (l.map fun e => (e.1, f e)) := by
  rw [addEach_ok op f l 0 [] h]
  congr 1
  obtain ⟨h1, h2⟩ := foldl_emplace_ok (l.map fun e => (e.1, f e)) [] (by simp [MMOk])
  exact keyEq_eq _ _ h1 (mmOk_map f l hm) h2

theorem transformLoop_ok [Mul F] [IntCast F] (tv : TVec) (pav : Paving) (ord : Nat → Nat → Nat → List Nat) (a : (Nat × Nat) × V3 Int → GLayer F) (b : (Nat × Nat) × V3 Int → GLayer F) :
    ∀ (cs : List ((Nat × Nat) × V3 Int)) (i : Nat), (∀ i, ∀ c ∈ cs, transformOne tv pav (ord i) c.2 (a c) = .ok (b c)) →
      transformLoop tv pav ord i (cs.map fun c => (c.1, a c)) cs = .ok (cs.map fun c => (c.1, b c)) := by
  intro cs
  induction cs with
  | nil => intro i _; rfl
  | cons c cs ih =>
    intro i h
    rw [List.map_cons, transformLoop]
    dsimp only
    rw [h i c List.mem_cons_self]
    dsimp only [Res.bind]
    rw [ih (i + 1) fun i e he => h i e (List.mem_cons_of_mem _ he)]
    rfl

/-- The blocks sent for one candidate. -/
def selRecs (mode : GMode) (sim : Box Int) (pbox : Nat → Box Int) (recs : Nat → List (GRec F)) (e : (Nat × Nat) × V3 Int) : List (GRec F) :=
  (recs e.1.1).filter fun r => (r.box.intersect ((pavOf mode sim).fBoxInv (pbox e.1.2) e.2)).isNotEmpty

/-- The three stages after the candidates. -/
theorem stages_ok [Mul F] [IntCast F] (ly : GLayout) (hok : ly.Ok) (mode : GMode) (sim : Box Int) (hpos : sim.lower.x < sim.upper.x ∧ sim.lower.y < sim.upper.y ∧ sim.lower.z < sim.upper.z)
    (he : EvenSides sim) (tv : TVec) (j : Junk F) (o1 o2 o3 : Nat → Nat → Nat → List Nat) (h1 : ∀ i k, GoodOrder (o1 i k)) (h2 : ∀ i k, GoodOrder (o2 i k)) (h3 : ∀ i k, GoodOrder (o3 i k))
    (boxes : Nat → Option (Box Int)) (pbox : Nat → Box Int) (recs : Nat → List (GRec F)) (data : List (Nat × GLayer F)) (c : List ((Nat × Nat) × V3 Int)) (hc : MMOk c)
    (hd : ∀ e ∈ c, mfind data e.1.1 = some (mkLayer ly (recs e.1.1)) ∧ ly.Fits (recs e.1.1).length ∧ (∀ r ∈ recs e.1.1, Ordered r.box) ∧ boxes e.1.2 = some (pbox e.1.2)) :
    ∃ idx g, findIndices mode sim j o1 boxes data c = .ok idx ∧ extractGhosts ly j o2 data idx = .ok g ∧
      transformGhosts mode sim tv o3 g c = .ok (c.map fun e => (e.1, mkLayer ly ((selRecs mode sim pbox recs e).map (GRec.image ly mode sim (turnOf tv e.2) e.2)))) := by
  let P : (Nat × Nat) × V3 Int → GRec F → Bool := fun e r => (r.box.intersect ((pavOf mode sim).fBoxInv (pbox e.1.2) e.2)).isNotEmpty
  refine ⟨c.map fun e => (e.1, selIdx (P e) (recs e.1.1)), c.map fun e => (e.1, mkLayer ly (selRecs mode sim pbox recs e)), ?_, ?_, ?_⟩
  · unfold findIndices
    rw [(getPaving_ok mode sim hpos).1 he]
    dsimp only [Res.bind]
    refine addEach_nil _ _ c hc fun i e hem => ?_
    obtain ⟨d1, d2, d3, d4⟩ := hd e hem
    unfold findIndicesOne
    rw [d1, d4]
    dsimp only
    have hcnt : (mkLayer ly (recs e.1.1)).bmin.objCnt = .ok (recs e.1.1).length := by
      show PField.objCnt (⟨1, (recs e.1.1).map (·.lo)⟩ : PField (V3 Int)) = _
      rw [one_mkF, objCnt_ok (mkF_wf 1 Nat.one_pos _ _ (by rw [Nat.mul_one]; exact d2.1)), mkF_count 1 Nat.one_pos]
    rw [hcnt]
    dsimp only [Res.bind]
    have hg : idsInGhost j (o1 i) (mkLayer ly (recs e.1.1)).bmin.buf (mkLayer ly (recs e.1.1)).bmax.buf ((pavOf mode sim).fBoxInv (pbox e.1.2) e.2) (recs e.1.1).length =
        .ok (selIdx (P e) (recs e.1.1)) := idsInGhost_ok j (o1 i) (h1 i) (recs e.1.1) d2.1 _
    rw [hg]
  · unfold extractGhosts
    rw [addEach_nil _ (fun x => mkLayer ly (x.2.filterMap fun i => (recs x.1.1)[i]?)) _ (mmOk_map _ c hc) fun i x hx => ?_]
    · rw [List.map_map]
      congr 1
      refine List.map_congr_left fun e _ => ?_
      show (e.1, mkLayer ly ((selIdx (P e) (recs e.1.1)).filterMap fun i => (recs e.1.1)[i]?)) = _
      rw [selIdx_values]
      rfl
    · obtain ⟨e, hem, rfl⟩ := List.mem_map.1 hx
      obtain ⟨d1, d2, d3, d4⟩ := hd e hem
      unfold extractOne
      dsimp only
      rw [d1]
      dsimp only
      rw [layer_append ly hok j (o2 i) (h2 i) _ d2 _ (selIdx_lt _ _) (by rw [selIdx_length]; exact List.length_filter_le _ _)]
      rfl
  · unfold transformGhosts
    rw [(getPaving_ok mode sim hpos).1 he]
    dsimp only [Res.bind]
    rw [if_neg (by rw [List.length_map]; simp)]
    refine transformLoop_ok tv _ o3 (fun e => mkLayer ly (selRecs mode sim pbox recs e)) _ c 0 fun i e hem => ?_
    obtain ⟨d1, d2, d3, d4⟩ := hd e hem
    have hle : (selRecs mode sim pbox recs e).length ≤ (recs e.1.1).length := List.length_filter_le _ _
    refine transformOne_ok ly hok mode sim he tv (o3 i) (h3 i) e.2 _ ⟨Nat.lt_of_le_of_lt hle d2.1, fun n hn => Nat.lt_of_le_of_lt (Nat.mul_le_mul_right n hle) (d2.2 n hn)⟩
      fun r hr => d3 r (List.mem_of_mem_filter hr)

/-! ### Fusion -/

theorem mfind_mem {V : Type} (d : List (Nat × V)) (q : Nat) (h : q ∈ d.map (·.1)) : ∃ v, mfind d q = some v ∧ (q, v) ∈ d := by
  induction d with
  | nil => simp at h
  | cons p d ih =>
    obtain ⟨a, b⟩ := p
    rw [mfind]
    by_cases hp : a = q
    · subst hp
      exact ⟨b, by rw [if_pos rfl], List.mem_cons_self⟩
    · rw [if_neg hp]
      rw [List.map_cons, List.mem_cons] at h
      obtain ⟨v, h1, h2⟩ := ih (h.resolve_left (fun hh => hp hh.symm))
      exact ⟨v, h1, List.mem_cons_of_mem _ h2⟩

theorem fuse_ok (ly : GLayout) : ∀ (rc : List ((Nat × Nat) × GLayer F)) (d : List (Nat × GLayer F)) (cur : Nat → List (GRec F)) (X : Nat → List (List (GRec F))),
    (∀ p ∈ d, p.2 = mkLayer ly (cur p.1)) → (∀ e ∈ rc, e.1.2 ∈ d.map (·.1)) →
    (∀ R ∈ d.map (·.1), ((rc.filter fun e => decide (e.1.2 = R)).map (·.2)) = (X R).map (mkLayer ly)) →
    fuseGhosts rc d = .ok (d.map fun p => (p.1, mkLayer ly (cur p.1 ++ (X p.1).flatten))) := by
  intro rc
  induction rc with
  | nil =>
    intro d cur X hd _ hX
    rw [fuseGhosts]
    congr 1
    conv_lhs => rw [← List.map_id d]
    refine List.map_congr_left fun p hp => ?_
    have := hX p.1 (List.mem_map_of_mem (f := fun x : Nat × GLayer F => x.1) hp)
    have h0 : X p.1 = [] := by
      rw [List.filter_nil, List.map_nil] at this
      exact List.map_eq_nil_iff.1 this.symm
    rw [h0, List.flatten_nil, List.append_nil, ← hd p hp]
    rfl
  | cons e rc ih =>
    intro d cur X hd hk hX
    have hR := hk e List.mem_cons_self
    obtain ⟨l, hl, hlm⟩ := mfind_mem d e.1.2 hR
    have hl2 := hd _ hlm
    dsimp only at hl2
    have hx := hX e.1.2 hR
    rw [List.filter_cons, if_pos (by simp), List.map_cons] at hx
    obtain ⟨x, xs, hxe⟩ : ∃ x xs, X e.1.2 = x :: xs := by
      cases hxx : X e.1.2 with
      | nil => rw [hxx] at hx; cases hx
      | cons x xs => exact ⟨x, xs, rfl⟩
    rw [hxe, List.map_cons, List.cons.injEq] at hx
    rw [fuseGhosts, hl]
    dsimp only
    rw [hl2, hx.1, layer_insert]
    dsimp only [Res.bind]
    have hkeys : (mput d e.1.2 (mkLayer ly (cur e.1.2 ++ x))).map (·.1) = d.map (·.1) := by
      unfold mput
      rw [List.map_map]
      refine List.map_congr_left fun p _ => ?_
      show (if p.1 = e.1.2 then (e.1.2, mkLayer ly (cur e.1.2 ++ x)) else p).1 = p.1
      split
      · rename_i h; exact h.symm
      · rfl
    rw [ih (mput d e.1.2 (mkLayer ly (cur e.1.2 ++ x))) (fun R => if R = e.1.2 then cur R ++ x else cur R) (fun R => if R = e.1.2 then xs else X R)]
    · congr 1
      unfold mput
      rw [List.map_map]
      refine List.map_congr_left fun p hp => ?_
      by_cases hpe : p.1 = e.1.2
      · simp only [Function.comp_apply, hpe, if_true, hxe, List.flatten_cons, List.append_assoc]
      · simp only [Function.comp_apply, hpe, if_false]
    · intro p hp
      unfold mput at hp
      obtain ⟨p', hp', rfl⟩ := List.mem_map.1 hp
      by_cases hpe : p'.1 = e.1.2
      · simp only [hpe, if_true]
      · simp only [hpe, if_false]
        exact hd p' hp'
    · intro e' he'
      rw [hkeys]
      exact hk e' (List.mem_cons_of_mem _ he')
    · intro R hRm
      rw [hkeys] at hRm
      by_cases hRe : R = e.1.2
      · subst hRe
        rw [if_pos rfl]
        exact hx.2
      · rw [if_neg hRe, ← hX R hRm, List.filter_cons, if_neg (by simpa using fun hh : e.1.2 = R => hRe hh.symm)]

end Shamrock.Gz
