import Verif.Model.Reattribute
import Verif.Props.Split
import Verif.Props.SparseComm
/-! Proofs about the redistribution of objects. -/
namespace Shamrock

/-- The objects of a layer. -/
def PLayer.objects {α : Type} (l : PLayer α) : List (List (List α)) :=
  match l with
  | [] => []
  | f :: r => PLayer.lobjs (f :: r) f.count

/-- The layer has the fields of the layout and all its fields have the same number of objects. -/
def PLayer.Good {α : Type} (lay : List Nat) (l : PLayer α) : Prop := l.map (·.nvar) = lay ∧ ∃ n, l.LWF n

theorem good_count {α : Type} {lay : List Nat} {l : PLayer α} (hne : lay ≠ []) (h : l.Good lay) :
    l.LWF l.objects.length ∧ l.lobjs l.objects.length = l.objects ∧ l.objCnt = .ok l.objects.length := by
  obtain ⟨h1, n, hn⟩ := h
  cases l with
  | nil => exact absurd h1.symm hne
  | cons f r =>
    have hc := (hn f List.mem_cons_self).2
    have hw := (hn f List.mem_cons_self).1
    have e : (PLayer.objects (f :: r)).length = f.count := by unfold PLayer.objects PLayer.lobjs; simp
    rw [e]
    exact ⟨by rw [hc]; exact hn, rfl, objCnt_ok hw⟩

theorem good_of {α : Type} {lay : List Nat} (hne : lay ≠ []) {l : PLayer α} {n : Nat} (hs : l.map (·.nvar) = lay) (hw : l.LWF n) :
    l.Good lay ∧ l.objects = l.lobjs n := by
  refine ⟨⟨hs, n, hw⟩, ?_⟩
  cases l with
  | nil => exact absurd hs.symm hne
  | cons f r => show PLayer.lobjs (f :: r) f.count = _; rw [(hw f List.mem_cons_self).2]

theorem good_get {α : Type} {lay : List Nat} (hne : lay ≠ []) {l : PLayer α} (h : l.Good lay) (i : Nat) (hi : i < l.objects.length) :
    l.objects[i]? = some (l.lobj i) := by
  obtain ⟨-, h2, -⟩ := good_count hne h
  rw [← h2]
  unfold PLayer.lobjs
  rw [List.getElem?_map, List.getElem?_range hi]; rfl

theorem good_size {α : Type} {lay : List Nat} (hne : lay ≠ []) {l : PLayer α} (h : l.Good lay) : (∀ v ∈ lay, 0 < v ∧ l.objects.length * v < 2 ^ 32) := by
  intro v hv
  obtain ⟨h1, -, -⟩ := good_count hne h
  rw [← h.1] at hv
  obtain ⟨f, hf, rfl⟩ := List.mem_map.1 hv
  obtain ⟨w, c⟩ := h1 f hf
  rw [← c]
  refine ⟨w.pos, ?_⟩
  have : f.count * f.nvar = f.buf.length := Nat.div_mul_cancel w.dvd
  rw [this]; exact w.lt

theorem lobjs_length {α : Type} (l : PLayer α) (n : Nat) : (l.lobjs n).length = n := by unfold PLayer.lobjs; simp

theorem good_empty {α : Type} {lay : List Nat} (hne : lay ≠ []) (hpos : ∀ n ∈ lay, 0 < n) : (PLayer.empty lay : PLayer α).Good lay ∧ (PLayer.empty lay : PLayer α).objects = [] := by
  have := good_of hne (l := (PLayer.empty lay : PLayer α)) (n := 0) (by unfold PLayer.empty; simp [Function.comp_def]) (by
    intro f hf
    unfold PLayer.empty at hf
    obtain ⟨n, hn, rfl⟩ := List.mem_map.1 hf
    refine ⟨⟨hpos n hn, by simp, by simp⟩, by simp [PField.count]⟩)
  refine ⟨this.1, ?_⟩
  rw [this.2]; rfl

theorem good_append {α : Type} {lay : List Nat} (hne : lay ≠ []) (garbage : Nat → α) (order : Nat → Nat → List Nat) (ho : ∀ k, GoodOrder (order k))
    {l o : PLayer α} (hl : l.Good lay) (hg : o.Good lay) (idxs : List Nat) (hi : ∀ i ∈ idxs, i < l.objects.length)
    (hsz : ∀ v ∈ lay, (o.objects.length + idxs.length) * v < 2 ^ 32) :
    ∃ o' : PLayer α, l.appendSubset garbage order idxs o = .ok o' ∧ o'.Good lay ∧ o'.objects = o.objects ++ idxs.map l.lobj := by
  obtain ⟨a1, a2, a3⟩ := good_count hne hl
  obtain ⟨b1, b2, b3⟩ := good_count hne hg
  obtain ⟨o', c1, c2, c3, c4⟩ := C39_layer_append_subset garbage order ho l o _ _ a1 b1 (by unfold PLayer.SameShape; rw [hl.1, hg.1]) idxs hi (by
    intro f hf
    exact hsz _ (by rw [← hl.1]; exact List.mem_map_of_mem hf))
  obtain ⟨d1, d2⟩ := good_of hne (by rw [← hl.1]; exact c3.symm) c2
  exact ⟨o', c1, d1, by rw [d2, c4, b2]⟩

theorem layer_insert_aux {α : Type} (n m : Nat) : ∀ (l p : PLayer α) (q : Nat), l.LWF n → p.LWF m → l.SameShape p →
    (∀ f ∈ l, (n + m) * f.nvar < 2 ^ 32) →
    ∃ l' : PLayer α, PLayer.zipM (fun _ f g => (pure (f.insert g) : Res (PField α))) q l p = .ok l' ∧ l'.LWF (n + m) ∧ l.SameShape l' ∧
      (∀ k < n, l'.lobj k = l.lobj k) ∧ ∀ j < m, l'.lobj (n + j) = p.lobj j := by
  intro l
  induction l with
  | nil =>
    intro p q hl hp hs hb
    have : p = [] := by
      cases p with
      | nil => rfl
      | cons a r => simp [PLayer.SameShape] at hs
    subst this
    refine ⟨[], rfl, ?_, rfl, fun _ _ => rfl, fun _ _ => rfl⟩
    intro f hf; cases hf
  | cons f r ih =>
    intro p q hl hp hs hb
    cases p with
    | nil => simp [PLayer.SameShape] at hs
    | cons g s =>
      simp only [PLayer.SameShape, List.map_cons, List.cons.injEq] at hs
      obtain ⟨fw, fc⟩ := hl f List.mem_cons_self
      obtain ⟨gw, gc⟩ := hp g List.mem_cons_self
      obtain ⟨a1, a2⟩ := C39_insert f g fw gw hs.1.symm (by rw [fc, gc]; exact hb f List.mem_cons_self)
      have ac : (f.insert g).count = n + m := by
        rw [← objs_length, a2, List.length_append, objs_length, objs_length, fc, gc]
      obtain ⟨s', b1, b2, b3, b4, b5⟩ := ih s (q + 1) (fun x hx => hl x (List.mem_cons_of_mem _ hx))
        (fun x hx => hp x (List.mem_cons_of_mem _ hx)) hs.2 (fun x hx => hb x (List.mem_cons_of_mem _ hx))
      refine ⟨f.insert g :: s', ?_, ?_, ?_, ?_, ?_⟩
      · simp only [PLayer.zipM]
        rw [b1]; rfl
      · intro x hx
        rcases List.mem_cons.1 hx with rfl | hx
        · exact ⟨a1, ac⟩
        · exact b2 x hx
      · simp only [PLayer.SameShape, List.map_cons, List.cons.injEq]
        exact ⟨rfl, b3⟩
      · intro k hk
        show (f.insert g).obj k :: PLayer.lobj s' k = f.obj k :: PLayer.lobj r k
        rw [b4 k hk, obj_of_objs (f.insert g) k (by omega) (f.obj k) (by
          rw [a2, List.getElem?_append_left (by rw [objs_length]; omega), objs_get f k (by omega)])]
      · intro j hj
        show (f.insert g).obj (n + j) :: PLayer.lobj s' (n + j) = g.obj j :: PLayer.lobj s j
        rw [b5 j hj, obj_of_objs (f.insert g) (n + j) (by omega) (g.obj j) (by
          rw [a2, List.getElem?_append_right (by rw [objs_length]; omega), objs_length, fc, Nat.add_sub_cancel_left, objs_get g j (by omega)])]

theorem good_insert {α : Type} {lay : List Nat} (hne : lay ≠ []) {l p : PLayer α} (hl : l.Good lay) (hp : p.Good lay)
    (hsz : ∀ v ∈ lay, (l.objects.length + p.objects.length) * v < 2 ^ 32) :
    ∃ l', l.insertElements p = .ok l' ∧ l'.Good lay ∧ l'.objects = l.objects ++ p.objects := by
  obtain ⟨a1, a2, a3⟩ := good_count hne hl
  obtain ⟨b1, b2, b3⟩ := good_count hne hp
  obtain ⟨l', c1, c2, c3, c4, c5⟩ := layer_insert_aux _ _ l p 0 a1 b1 (by unfold PLayer.SameShape; rw [hl.1, hp.1]) (by
    intro f hf
    exact hsz _ (by rw [← hl.1]; exact List.mem_map_of_mem hf))
  obtain ⟨d1, d2⟩ := good_of hne (by rw [← hl.1]; exact c3.symm) c2
  refine ⟨l', c1, d1, ?_⟩
  have := lobjs_append l' l p l.objects.length (List.range p.objects.length) c4 (by
    intro j i hj
    have hj' := (List.getElem?_eq_some_iff.1 hj).1
    rw [List.length_range] at hj'
    rw [List.getElem?_range hj', Option.some.injEq] at hj
    subst hj
    exact c5 j hj')
  rw [List.length_range] at this
  rw [d2, this, a2]
  congr 1

theorem layer_keep_aux {α : Type} (garbage : Nat → α) (order : Nat → Nat → List Nat) (ho : ∀ k, GoodOrder (order k)) (idxs : List Nat)
    (n : Nat) (hi : ∀ i ∈ idxs, i < n) : ∀ (l : PLayer α) (q : Nat), l.LWF n → (∀ f ∈ l, idxs.length * f.nvar < 2 ^ 32) →
    ∃ l' : PLayer α, PLayer.keepIds garbage order idxs q l = .ok l' ∧ l'.LWF idxs.length ∧ l.SameShape l' ∧
      ∀ (j i : Nat), idxs[j]? = some i → l'.lobj j = l.lobj i := by
  intro l
  induction l with
  | nil => intro q _ _; exact ⟨[], rfl, (fun f hf => absurd hf List.not_mem_nil), rfl, fun _ _ _ => rfl⟩
  | cons f r ih =>
    intro q hl hb
    obtain ⟨fw, fc⟩ := hl f List.mem_cons_self
    obtain ⟨f', a1, a2, a3, a4⟩ := C39_index_remap_resize garbage (order q) (ho q) f fw idxs (by rw [fc]; exact hi) (hb f List.mem_cons_self)
    obtain ⟨r', b1, b2, b3, b4⟩ := ih (q + 1) (fun x hx => hl x (List.mem_cons_of_mem _ hx)) (fun x hx => hb x (List.mem_cons_of_mem _ hx))
    have fc' : f'.count = idxs.length := by rw [← objs_length, a4, List.length_map]
    refine ⟨f' :: r', ?_, ?_, ?_, ?_⟩
    · simp only [PLayer.keepIds]
      rw [a1]; simp only [Res.bind]; rw [b1]
    · intro x hx
      rcases List.mem_cons.1 hx with rfl | hx
      · exact ⟨a3, fc'⟩
      · exact b2 x hx
    · simp only [PLayer.SameShape, List.map_cons, List.cons.injEq]
      exact ⟨a2.symm, b3⟩
    · intro j i hj
      have hjl := (List.getElem?_eq_some_iff.1 hj).1
      show f'.obj j :: PLayer.lobj r' j = f.obj i :: PLayer.lobj r i
      rw [b4 j i hj, obj_of_objs f' j (by omega) (f.obj i) (by rw [a4, List.getElem?_map, hj]; rfl)]

theorem good_keep {α : Type} {lay : List Nat} (hne : lay ≠ []) (garbage : Nat → α) (order : Nat → Nat → List Nat) (ho : ∀ k, GoodOrder (order k))
    {l : PLayer α} (hl : l.Good lay) (idxs : List Nat) (hi : ∀ i ∈ idxs, i < l.objects.length) (hsz : ∀ v ∈ lay, idxs.length * v < 2 ^ 32) :
    ∃ l' : PLayer α, PLayer.keepIds garbage order idxs 0 l = .ok l' ∧ l'.Good lay ∧ l'.objects = idxs.map l.lobj := by
  obtain ⟨a1, a2, a3⟩ := good_count hne hl
  obtain ⟨l', c1, c2, c3, c4⟩ := layer_keep_aux garbage order ho idxs _ hi l 0 a1 (by
    intro f hf
    exact hsz _ (by rw [← hl.1]; exact List.mem_map_of_mem hf))
  obtain ⟨d1, d2⟩ := good_of hne (by rw [← hl.1]; exact c3.symm) c2
  refine ⟨l', c1, d1, ?_⟩
  rw [d2]
  unfold PLayer.lobjs
  apply List.ext_getElem?
  intro j
  rw [List.getElem?_map, List.getElem?_map]
  by_cases hj : j < idxs.length
  · rw [List.getElem?_range hj, List.getElem?_eq_getElem hj]
    simp only [Option.map_some]
    rw [c4 j _ (List.getElem?_eq_getElem hj)]
  · rw [List.getElem?_eq_none (by simp; omega), List.getElem?_eq_none (by omega)]; rfl

/-! ### The new ids -/

/-- Position of an object: the first value of its field `ipos`. -/
def objPos {α F : Type} (ipos : Nat) (pos : α → V3 F) (o : List (List α)) : Option (V3 F) := (o[ipos]?.bind fun c => c[0]?).map pos

theorem ownerList_ok {α F : Type} (owner : V3 F → Res Nat) (pos : α → V3 F) (own : α → Nat) (vs : List α) (h : ∀ v ∈ vs, owner (pos v) = .ok (own v)) :
    ownerList owner pos vs = .ok (vs.map own) := by
  induction vs with
  | nil => rfl
  | cons v vs ih =>
    simp only [ownerList]
    rw [h v List.mem_cons_self]
    simp only [Res.bind]
    rw [ih (fun x hx => h x (List.mem_cons_of_mem _ hx))]; rfl

/-- With one value per object the objects of the field are the values. -/
theorem objs_nvar1 {α : Type} {f : PField α} (h1 : f.nvar = 1) (i : Nat) (hi : i < f.count) : f.obj i = f.buf[i]?.toList ∧ f.count = f.buf.length := by
  have hc : f.count = f.buf.length := by unfold PField.count; rw [h1, Nat.div_one]
  refine ⟨?_, hc⟩
  unfold PField.obj
  rw [h1]
  simp only [Nat.mul_one]
  rw [List.getElem?_eq_getElem (by omega), List.drop_eq_getElem_cons (by omega)]
  rfl

theorem newPids_eq {α F : Type} {lay : List Nat} (hne : lay ≠ []) (owner : V3 F → Res Nat) (pos : α → V3 F) (ipos : Nat) (hpos : lay[ipos]? = some 1)
    {l : PLayer α} (hl : l.Good lay) (dest : List (List α) → Nat) (hd : ∀ o ∈ l.objects, ∃ p, objPos ipos pos o = some p ∧ owner p = .ok (dest o)) :
    newPids owner pos ipos l = if (l.objects.map dest).any (fun q => q == u64max) then .throws else .ok (l.objects.map dest) := by
  obtain ⟨a1, a2, a3⟩ := good_count hne hl
  have hf : ∃ f, l[ipos]? = some f ∧ f.nvar = 1 := by
    rw [← hl.1, List.getElem?_map] at hpos
    cases h : l[ipos]? with
    | none => rw [h] at hpos; cases hpos
    | some f => rw [h] at hpos; simp only [Option.map_some, Option.some.injEq] at hpos; exact ⟨f, rfl, hpos⟩
  obtain ⟨f, hf, hn⟩ := hf
  obtain ⟨fw, fc⟩ := a1 f (List.mem_of_getElem? hf)
  have hbl : f.buf.length = f.count := by
    unfold PField.count; rw [hn, Nat.div_one]
  -- the value of object i
  have hval : ∀ i (hi : i < f.count), (l.lobj i)[ipos]? = some [f.buf[i]'(by omega)] := by
    intro i hi
    unfold PLayer.lobj
    rw [List.getElem?_map, hf]
    simp only [Option.map_some, Option.some.injEq]
    rw [(objs_nvar1 hn i hi).1, List.getElem?_eq_getElem (by omega)]; rfl
  have hown : ∀ i (hi : i < f.count), owner (pos (f.buf[i]'(by omega))) = .ok (dest (l.lobj i)) := by
    intro i hi
    have hm : l.lobj i ∈ l.objects := List.mem_of_getElem? (good_get hne hl i (by omega))
    obtain ⟨p, p1, p2⟩ := hd _ hm
    unfold objPos at p1
    rw [hval i hi] at p1
    simp only [Option.bind_some, List.getElem?_cons_zero, Option.map_some, Option.some.injEq] at p1
    rw [p1]; exact p2
  -- the list of owners
  have hlist : ownerList owner pos f.buf = .ok (l.objects.map dest) := by
    have gen : ∀ (vs : List α) (k : Nat), vs = f.buf.drop k → ownerList owner pos vs = .ok ((List.range' k (f.count - k)).map fun i => dest (l.lobj i)) := by
      intro vs
      induction vs with
      | nil =>
        intro k hk
        have := congrArg List.length hk
        rw [List.length_drop, List.length_nil] at this
        rw [show f.count - k = 0 by omega]; rfl
      | cons v vs ih =>
        intro k hk
        have hlen := congrArg List.length hk
        rw [List.length_drop, List.length_cons] at hlen
        have hk' : k < f.buf.length := by omega
        rw [List.drop_eq_getElem_cons hk', List.cons.injEq] at hk
        simp only [ownerList]
        rw [hk.1, hown k (by omega)]
        simp only [Res.bind]
        rw [ih (k + 1) hk.2, show f.count - k = f.count - (k + 1) + 1 by omega, List.range'_succ]; rfl
    rw [gen f.buf 0 (by simp), Nat.sub_zero, ← List.range_eq_range', fc]
    conv => rhs; rw [← a2]
    unfold PLayer.lobjs
    rw [List.map_map]; rfl
  unfold newPids
  rw [hf]
  simp only
  rw [if_neg (by simpa using hn), objCnt_ok fw]
  simp only [Res.bind]
  rw [← hbl, List.take_length, hlist]


/-- The new ids of the non empty patches. -/
def pidTable {α : Type} (dest : List (List α) → Nat) (d : RankData α) : List (Nat × List Nat) :=
  (d.filter fun kv => !kv.2.objects.isEmpty).map fun kv => (kv.1, kv.2.objects.map dest)

theorem computeNewPid_ok {α F : Type} {lay : List Nat} (hne : lay ≠ []) (owner : V3 F → Res Nat) (pos : α → V3 F) (ipos : Nat) (hpos : lay[ipos]? = some 1)
    (dest : List (List α) → Nat) (d : RankData α) (hg : ∀ kv ∈ d, kv.2.Good lay)
    (hd : ∀ kv ∈ d, ∀ o ∈ kv.2.objects, ∃ p, objPos ipos pos o = some p ∧ owner p = .ok (dest o) ∧ dest o ≠ u64max) :
    computeNewPid owner pos ipos d = .ok (pidTable dest d) := by
  induction d with
  | nil => rfl
  | cons kv d ih =>
    obtain ⟨id, l⟩ := kv
    have hl := hg (id, l) List.mem_cons_self
    have hdl := hd (id, l) List.mem_cons_self
    have ih := ih (fun x hx => hg x (List.mem_cons_of_mem _ hx)) (fun x hx => hd x (List.mem_cons_of_mem _ hx))
    simp only [computeNewPid]
    simp only at hl hdl
    rw [(good_count hne hl).2.2]
    simp only [Res.bind]
    by_cases h0 : l.objects.length ≠ 0
    · rw [if_pos h0, newPids_eq hne owner pos ipos hpos hl dest (fun o ho => by obtain ⟨p, a, b, c⟩ := hdl o ho; exact ⟨p, a, b⟩), if_neg, ih]
      · simp only
        unfold pidTable
        rw [List.filter_cons_of_pos]
        · rfl
        · simp only [Bool.not_eq_true', List.isEmpty_eq_false_iff]
          exact fun h => h0 (by rw [h]; rfl)
      · simp only [List.any_map, List.any_eq_true, Function.comp, beq_iff_eq, not_exists, not_and]
        intro o ho
        obtain ⟨p, a, b, c⟩ := hdl o ho
        exact c
    · rw [if_neg h0, ih]
      unfold pidTable
      rw [List.filter_cons_of_neg]
      simp only [Bool.not_eq_true', Bool.not_eq_false, List.isEmpty_iff]
      exact List.eq_nil_of_length_eq_zero (by omega)

theorem computeNewPid_throws {α F : Type} {lay : List Nat} (hne : lay ≠ []) (owner : V3 F → Res Nat) (pos : α → V3 F) (ipos : Nat) (hpos : lay[ipos]? = some 1)
    (dest : List (List α) → Nat) (d : RankData α) (hg : ∀ kv ∈ d, kv.2.Good lay)
    (hd : ∀ kv ∈ d, ∀ o ∈ kv.2.objects, ∃ p, objPos ipos pos o = some p ∧ owner p = .ok (dest o))
    (hx : ∃ kv ∈ d, ∃ o ∈ kv.2.objects, dest o = u64max) :
    computeNewPid owner pos ipos d = .throws := by
  induction d with
  | nil => obtain ⟨kv, h, -⟩ := hx; cases h
  | cons kv d ih =>
    obtain ⟨id, l⟩ := kv
    have hl := hg (id, l) List.mem_cons_self
    have hdl := hd (id, l) List.mem_cons_self
    have ih := ih (fun x hx => hg x (List.mem_cons_of_mem _ hx)) (fun x hx => hd x (List.mem_cons_of_mem _ hx))
    simp only [computeNewPid]
    simp only at hl hdl
    rw [(good_count hne hl).2.2]
    simp only [Res.bind]
    by_cases hm : ∃ o ∈ l.objects, dest o = u64max
    · obtain ⟨o, ho, hou⟩ := hm
      have h0 : l.objects.length ≠ 0 := by
        intro h
        rw [List.eq_nil_of_length_eq_zero h] at ho; cases ho
      rw [if_pos h0, newPids_eq hne owner pos ipos hpos hl dest hdl, if_pos]
      simp only [List.any_map, List.any_eq_true, Function.comp, beq_iff_eq]
      exact ⟨o, ho, hou⟩
    · have hx' : ∃ kv ∈ d, ∃ o ∈ kv.2.objects, dest o = u64max := by
        obtain ⟨kv, h, ho⟩ := hx
        rcases List.mem_cons.1 h with rfl | h
        · exact absurd ho hm
        · exact ⟨kv, h, ho⟩
      by_cases h0 : l.objects.length ≠ 0
      · rw [if_pos h0, newPids_eq hne owner pos ipos hpos hl dest hdl, if_neg, ih hx']
        simp only [List.any_map, List.any_eq_true, Function.comp, beq_iff_eq]
        exact hm
      · rw [if_neg h0, ih hx']

theorem mfind_pidTable {α : Type} (dest : List (List α) → Nat) (d : RankData α) (hm : MapOk d) (id : Nat) (l : PLayer α) (h : (id, l) ∈ d) (hne : l.objects ≠ []) :
    mfind (pidTable dest d) id = some (l.objects.map dest) := by
  induction d with
  | nil => cases h
  | cons kv d ih =>
    obtain ⟨h1, h2⟩ := List.pairwise_cons.1 hm
    rcases List.mem_cons.1 h with rfl | h
    · unfold pidTable
      rw [List.filter_cons_of_pos]
      · simp [mfind]
      · simpa using hne
    · have hlt := h1 _ h
      have := ih h2 h
      unfold pidTable at this ⊢
      by_cases hk : (!kv.2.objects.isEmpty) = true
      · rw [List.filter_cons_of_pos (p := fun kv : Nat × PLayer α => !kv.2.objects.isEmpty) (by exact hk)]
        simp only [List.map_cons, mfind]
        have hne' : kv.1 ≠ id := by simp only at hlt; omega
        simp [hne', this]
      · rw [List.filter_cons_of_neg (p := fun kv : Nat × PLayer α => !kv.2.objects.isEmpty) (by exact hk)]; exact this

/-! ### Grouping the indices -/

/-- The entries of `grpPush`. -/
theorem grpPush_spec (g : List (Nat × List Nat)) (p i : Nat) (hn : (g.map (·.1)).Nodup) :
    ((grpPush g p i).map (·.1)).Nodup ∧ (∀ q, q ∈ (grpPush g p i).map (·.1) ↔ q = p ∨ q ∈ g.map (·.1)) ∧
    ∀ q v, (q, v) ∈ grpPush g p i → if q = p then (∃ w, (q, w) ∈ g ∧ v = w ++ [i]) ∨ (q ∉ g.map (·.1) ∧ v = [i]) else (q, v) ∈ g := by
  induction g with
  | nil =>
    simp only [grpPush]
    refine ⟨by simp, by simp, ?_⟩
    intro q v h
    simp only [List.mem_singleton, Prod.mk.injEq] at h
    rw [if_pos h.1]
    exact Or.inr ⟨by simp, h.2⟩
  | cons kv g ih =>
    obtain ⟨q0, v0⟩ := kv
    rw [List.map_cons, List.nodup_cons] at hn
    obtain ⟨i1, i2, i3⟩ := ih hn.2
    simp only [grpPush]
    by_cases h : q0 = p
    · rw [if_pos h]
      subst h
      refine ⟨by simpa using hn, by simp, ?_⟩
      intro q v hq
      rcases List.mem_cons.1 hq with hq | hq
      · simp only [Prod.mk.injEq] at hq
        rw [if_pos hq.1]
        exact Or.inl ⟨v0, by rw [hq.1]; exact List.mem_cons_self, hq.2⟩
      · have : q ≠ q0 := by
          intro hqq
          exact hn.1 (hqq ▸ List.mem_map_of_mem (f := (·.1)) hq)
        rw [if_neg this]
        exact List.mem_cons_of_mem _ hq
    · rw [if_neg h]
      refine ⟨?_, ?_, ?_⟩
      · rw [List.map_cons, List.nodup_cons]
        refine ⟨?_, i1⟩
        intro hc
        rcases (i2 q0).1 hc with hc | hc
        · exact h hc
        · exact hn.1 hc
      · intro q
        rw [List.map_cons, List.mem_cons, i2 q, List.map_cons, List.mem_cons]
        constructor
        · rintro (a | a | a)
          · exact Or.inr (Or.inl a)
          · exact Or.inl a
          · exact Or.inr (Or.inr a)
        · rintro (a | a | a)
          · exact Or.inr (Or.inl a)
          · exact Or.inl a
          · exact Or.inr (Or.inr a)
      · intro q v hq
        rcases List.mem_cons.1 hq with hq | hq
        · simp only [Prod.mk.injEq] at hq
          obtain ⟨rfl, rfl⟩ := hq
          rw [if_neg h]
          exact List.mem_cons_self
        · have := i3 q v hq
          split at this
          · rename_i hqp
            rw [if_pos hqp]
            rcases this with ⟨w, a, b⟩ | ⟨a, b⟩
            · exact Or.inl ⟨w, List.mem_cons_of_mem _ a, b⟩
            · refine Or.inr ⟨?_, b⟩
              rw [List.map_cons, List.mem_cons, not_or]
              exact ⟨by rw [hqp]; exact fun hc => h hc.symm, a⟩
          · rename_i hqp
            rw [if_neg hqp]
            exact List.mem_cons_of_mem _ this

/-- The indices `< k` whose new id is `q`. -/
def idxFor (nid : List Nat) (q k : Nat) : List Nat := (List.range k).filter fun i => nid[i]? == some q

theorem idxFor_succ (nid : List Nat) (q k p : Nat) (h : nid[k]? = some p) : idxFor nid q (k + 1) = if p = q then idxFor nid q k ++ [k] else idxFor nid q k := by
  unfold idxFor
  rw [List.range_succ, List.filter_append]
  by_cases hp : p = q
  · rw [if_pos hp, List.filter_cons_of_pos (by rw [h, hp]; simp)]; rfl
  · rw [if_neg hp, List.filter_cons_of_neg (by rw [h]; simpa using hp)]; simp

/-- State of the loop over the objects after `k` of them. -/
structure PartOk (cur : Nat) (nid : List Nat) (k : Nat) (keep : List Nat) (g : List (Nat × List Nat)) : Prop where
  keep : keep = idxFor nid cur k
  nodup : (g.map (·.1)).Nodup
  ent : ∀ q v, (q, v) ∈ g → q ≠ cur ∧ v = idxFor nid q k ∧ ∃ i < k, nid[i]? = some q
  all : ∀ i < k, ∀ q, nid[i]? = some q → q ≠ cur → q ∈ g.map (·.1)

theorem partLoop_ok (cur : Nat) (nid : List Nat) : ∀ (ps : List Nat) (k : Nat) keep g, ps = nid.drop k → k ≤ nid.length → PartOk cur nid k keep g →
    PartOk cur nid nid.length (partLoop cur ps k keep g).1 (partLoop cur ps k keep g).2 := by
  intro ps
  induction ps with
  | nil =>
    intro k keep g h hk H
    have := congrArg List.length h
    rw [List.length_nil, List.length_drop] at this
    have : k = nid.length := by omega
    subst this
    exact H
  | cons p ps ih =>
    intro k keep g h hk H
    have hlen := congrArg List.length h
    rw [List.length_cons, List.length_drop] at hlen
    have hk' : k < nid.length := by omega
    rw [List.drop_eq_getElem_cons hk', List.cons.injEq] at h
    have hp : nid[k]? = some p := by rw [List.getElem?_eq_getElem hk', h.1]
    simp only [partLoop]
    by_cases hc : cur ≠ p
    · rw [if_pos hc]
      obtain ⟨g1, g2, g3⟩ := grpPush_spec g p k H.nodup
      refine ih (k + 1) _ _ h.2 (by omega) ⟨?_, g1, ?_, ?_⟩
      · rw [idxFor_succ nid cur k p hp, if_neg (fun h => hc h.symm)]; exact H.keep
      · intro q v hq
        have := g3 q v hq
        split at this
        · rename_i hqp
          subst hqp
          rw [idxFor_succ nid q k q hp, if_pos rfl]
          refine ⟨fun h => hc h.symm, ?_, k, by omega, hp⟩
          rcases this with ⟨w, a, b⟩ | ⟨a, b⟩
          · rw [b, (H.ent q w a).2.1]
          · rw [b]
            have : idxFor nid q k = [] := by
              unfold idxFor
              rw [List.filter_eq_nil_iff]
              intro i hi hq
              exact a (H.all i (List.mem_range.1 hi) q (by simpa using hq) (fun h => hc h.symm))
            rw [this]; rfl
        · rename_i hqp
          obtain ⟨a, b, i, c, d⟩ := H.ent q v this
          rw [idxFor_succ nid q k p hp, if_neg (fun h => hqp h.symm)]
          exact ⟨a, b, i, by omega, d⟩
      · intro i hi q hq hqc
        rw [g2 q]
        by_cases hik : i = k
        · subst hik
          rw [hp, Option.some.injEq] at hq
          exact Or.inl hq.symm
        · exact Or.inr (H.all i (by omega) q hq hqc)
    · have hc : p = cur := (not_not.1 hc).symm
      rw [if_neg (by simpa using hc.symm)]
      refine ih (k + 1) _ _ h.2 (by omega) ⟨?_, H.nodup, ?_, ?_⟩
      · rw [idxFor_succ nid cur k p hp, if_pos hc, H.keep]
      · intro q v hq
        obtain ⟨a, b, i, c, d⟩ := H.ent q v hq
        rw [idxFor_succ nid q k p hp, if_neg (by rw [hc]; exact fun h => a h.symm)]
        exact ⟨a, b, i, by omega, d⟩
      · intro i hi q hq hqc
        by_cases hik : i = k
        · subst hik
          rw [hp, Option.some.injEq] at hq
          exact absurd (hq.symm.trans hc) hqc
        · exact H.all i (by omega) q hq hqc

/-- The objects at the selected indices are the objects with that destination. -/
theorem idxFor_objects {α : Type} {lay : List Nat} (hne : lay ≠ []) {l : PLayer α} (hl : l.Good lay) (dest : List (List α) → Nat) (q : Nat) :
    (idxFor (l.objects.map dest) q l.objects.length).map l.lobj = l.objects.filter fun o => dest o == q := by
  obtain ⟨-, h2, -⟩ := good_count hne hl
  conv => rhs; rw [← h2]
  unfold PLayer.lobjs idxFor
  rw [List.filter_map]
  congr 1
  apply List.filter_congr
  intro i hi
  rw [List.mem_range] at hi
  rw [List.getElem?_map, good_get hne hl i hi]
  rfl

/-! ### Building the exchange -/

theorem mmEmplace_split {V : Type} (m : List ((Nat × Nat) × V)) (x) : ∃ A B, m = A ++ B ∧ mmEmplace m x = A ++ x :: B := by
  induction m with
  | nil => exact ⟨[], [], rfl, rfl⟩
  | cons y m ih =>
    simp only [mmEmplace]
    by_cases h : pairLt x.1 y.1 = true
    · rw [if_pos h]; exact ⟨[], y :: m, rfl, rfl⟩
    · rw [if_neg h]
      obtain ⟨A, B, h1, h2⟩ := ih
      exact ⟨y :: A, B, by rw [h1]; rfl, by rw [h2]; rfl⟩

theorem ddsForKey_none {T : Type} (key : Nat × Nat) (f : T → Res T) (m : List ((Nat × Nat) × T)) (h : ∀ e ∈ m, e.1 ≠ key) : ddsForKey key f m = .ok m := by
  induction m with
  | nil => rfl
  | cons e m ih =>
    obtain ⟨k, x⟩ := e
    simp only [ddsForKey]
    rw [if_neg (h (k, x) List.mem_cons_self)]
    simp only [Res.bind]
    rw [ih (fun x hx => h x (List.mem_cons_of_mem _ hx))]

theorem ddsForKey_one {T : Type} (key : Nat × Nat) (f : T → Res T) (A B : List ((Nat × Nat) × T)) (x x' : T) (hf : f x = .ok x')
    (hA : ∀ e ∈ A, e.1 ≠ key) (hB : ∀ e ∈ B, e.1 ≠ key) : ddsForKey key f (A ++ (key, x) :: B) = .ok (A ++ (key, x') :: B) := by
  induction A with
  | nil =>
    simp only [List.nil_append, ddsForKey, if_true]
    rw [hf]
    simp only [Res.bind]
    rw [ddsForKey_none key f B hB]
  | cons e A ih =>
    obtain ⟨k, y⟩ := e
    simp only [List.cons_append, ddsForKey]
    rw [if_neg (hA (k, y) List.mem_cons_self)]
    simp only [Res.bind]
    rw [ih (fun x hx => hA x (List.mem_cons_of_mem _ hx))]

theorem sendLoop_ok {α : Type} {lay : List Nat} (hne : lay ≠ []) (hlp : ∀ n ∈ lay, 0 < n) (garbage : Nat → α) (order : Nat → Nat → Nat → List Nat)
    (ho : ∀ q k, GoodOrder (order q k)) (cur : Nat) {l : PLayer α} (hl : l.Good lay) : ∀ (g : List (Nat × List Nat)) (ex : List ((Nat × Nat) × PLayer α)),
    (g.map (·.1)).Nodup → (∀ e ∈ ex, ∀ gv ∈ g, e.1 ≠ (cur, gv.1)) → (∀ gv ∈ g, (∀ i ∈ gv.2, i < l.objects.length) ∧ ∀ v ∈ lay, gv.2.length * v < 2 ^ 32) →
    ∃ ex' E, sendLoop garbage order lay cur l g ex = .ok ex' ∧ ex'.Perm (ex ++ E) ∧
      List.Forall₂ (fun (gv : Nat × List Nat) (e : (Nat × Nat) × PLayer α) => e.1 = (cur, gv.1) ∧ e.2.Good lay ∧ e.2.objects = gv.2.map l.lobj) g E := by
  intro g
  induction g with
  | nil => intro ex _ _ _; exact ⟨ex, [], rfl, by simp, .nil⟩
  | cons gv g ih =>
    intro ex hn hex hr
    obtain ⟨q, v⟩ := gv
    rw [List.map_cons, List.nodup_cons] at hn
    obtain ⟨hi, hv⟩ := hr (q, v) List.mem_cons_self
    obtain ⟨e1, e2⟩ := good_empty (α := α) hne hlp
    obtain ⟨o', c1, c2, c3⟩ := good_append hne garbage (order q) (ho q) hl e1 v hi (by
      intro n hn; rw [e2, List.length_nil, Nat.zero_add]; exact hv n hn)
    rw [e2, List.nil_append] at c3
    have hk : ddsHasKey ex cur q = false := by
      unfold ddsHasKey
      rw [List.any_eq_false]
      intro e he hc
      exact hex e he (q, v) List.mem_cons_self (by simpa using hc)
    obtain ⟨A, B, hAB, hem⟩ := mmEmplace_split ex ((cur, q), (PLayer.empty lay : PLayer α))
    have hfk := ddsForKey_one (cur, q) (fun out => l.appendSubset garbage (order q) v out) A B _ _ c1
      (fun e he => hex e (by rw [hAB]; exact List.mem_append_left _ he) (q, v) List.mem_cons_self)
      (fun e he => hex e (by rw [hAB]; exact List.mem_append_right _ he) (q, v) List.mem_cons_self)
    have hp1 : (A ++ ((cur, q), o') :: B).Perm (((cur, q), o') :: ex) := by
      rw [hAB]; exact List.perm_middle
    obtain ⟨ex', E, d1, d2, d3⟩ := ih (A ++ ((cur, q), o') :: B) hn.2 (by
      intro e he gv hg
      rcases List.mem_cons.1 (hp1.mem_iff.1 he) with rfl | he
      · intro hc
        simp only [Prod.mk.injEq, true_and] at hc
        exact hn.1 (hc ▸ List.mem_map_of_mem (f := (·.1)) hg)
      · exact hex e he gv (List.mem_cons_of_mem _ hg)) (fun gv hg => hr gv (List.mem_cons_of_mem _ hg))
    refine ⟨ex', ((cur, q), o') :: E, ?_, ?_, .cons ⟨rfl, c2, c3⟩ d3⟩
    · simp only [sendLoop]
      rw [hk]
      simp only [Bool.false_eq_true, if_false, ddsAddObj]
      rw [hem, hfk]
      exact d1
    · refine d2.trans ((hp1.append_right E).trans ?_)
      rw [List.cons_append]
      exact List.perm_middle.symm

/-- What is sent to `q`, from the list of groups. -/
theorem sent_to {α : Type} {lay : List Nat} (cur : Nat) (l : PLayer α) (F : Nat → List (List (List α))) (g : List (Nat × List Nat)) (E : List ((Nat × Nat) × PLayer α))
    (hn : (g.map (·.1)).Nodup) (hF : ∀ gv ∈ g, gv.2.map l.lobj = F gv.1)
    (h : List.Forall₂ (fun (gv : Nat × List Nat) (e : (Nat × Nat) × PLayer α) => e.1 = (cur, gv.1) ∧ e.2.Good lay ∧ e.2.objects = gv.2.map l.lobj) g E) (q : Nat) :
    (E.filter fun e => e.1.2 == q).flatMap (fun e => e.2.objects) = if q ∈ g.map (·.1) then F q else [] := by
  induction h with
  | nil => rfl
  | @cons gv e g E hh ht ih =>
    rw [List.map_cons, List.nodup_cons] at hn
    have ih := ih hn.2 (fun x hx => hF x (List.mem_cons_of_mem _ hx))
    have h0 := hF gv List.mem_cons_self
    by_cases hq : gv.1 = q
    · rw [List.filter_cons_of_pos (by rw [hh.1]; simpa using hq), List.flatMap_cons, ih, if_neg (by rw [← hq]; exact hn.1),
        if_pos (by rw [List.map_cons, hq]; exact List.mem_cons_self), List.append_nil, hh.2.2, h0, hq]
    · rw [List.filter_cons_of_neg (by rw [hh.1]; simpa using hq), ih]
      have : (q ∈ List.map (·.1) (gv :: g)) ↔ q ∈ g.map (·.1) := by
        rw [List.map_cons, List.mem_cons]
        exact ⟨fun h => h.resolve_left (fun h => hq h.symm), Or.inr⟩
      by_cases hm : q ∈ g.map (·.1)
      · rw [if_pos hm, if_pos (this.2 hm)]
      · rw [if_neg hm, if_neg (fun h => hm (this.1 h))]

theorem idxFor_lt (nid : List Nat) (q k : Nat) : (∀ i ∈ idxFor nid q k, i < k) ∧ (idxFor nid q k).length ≤ k := by
  unfold idxFor
  refine ⟨fun i hi => List.mem_range.1 (List.mem_filter.1 hi).1, ?_⟩
  have := List.length_filter_le (fun i => nid[i]? == some q) (List.range k)
  rwa [List.length_range] at this

/-- One patch that is not empty: what is kept and what is sent. -/
theorem extract_patch {α : Type} {lay : List Nat} (hne : lay ≠ []) (hlp : ∀ n ∈ lay, 0 < n) (garbage : Nat → α) (order : Nat → Nat → Nat → List Nat)
    (ho : ∀ q k, GoodOrder (order q k)) (perm : List (Nat × List Nat) → List (Nat × List Nat)) (hperm : ∀ g, (perm g).Perm g) (dest : List (List α) → Nat)
    (cur : Nat) {l : PLayer α} (hl : l.Good lay) (hsz : ∀ v ∈ lay, l.objects.length * v < 2 ^ 32) (ex : List ((Nat × Nat) × PLayer α)) (hex : ∀ e ∈ ex, e.1.1 ≠ cur) :
    ∃ l1 ex1 E, sendLoop garbage order lay cur l (perm (partLoop cur ((l.objects.map dest).take l.objects.length) 0 [] []).2) ex = .ok ex1 ∧
      PLayer.keepIds garbage (order cur) (partLoop cur ((l.objects.map dest).take l.objects.length) 0 [] []).1 0 l = .ok l1 ∧
      l1.Good lay ∧ l1.objects = l.objects.filter (fun o => dest o == cur) ∧ ex1.Perm (ex ++ E) ∧
      (∀ e ∈ E, e.2.Good lay ∧ e.1.1 = cur ∧ ∃ o ∈ l.objects, dest o = e.1.2) ∧
      ∀ q, (E.filter fun e => e.1.2 == q).flatMap (fun e => e.2.objects) = if q = cur then [] else l.objects.filter (fun o => dest o == q) := by
  have htk : (l.objects.map dest).take l.objects.length = l.objects.map dest := by
    rw [List.take_of_length_le (by simp)]
  rw [htk]
  have hP : PartOk cur (l.objects.map dest) 0 [] [] := ⟨rfl, List.nodup_nil, fun _ _ h => absurd h List.not_mem_nil, fun _ h => absurd h (Nat.not_lt_zero _)⟩
  have hP := partLoop_ok cur (l.objects.map dest) _ 0 [] [] rfl (Nat.zero_le _) hP
  rw [List.drop_zero] at hP
  generalize partLoop cur (l.objects.map dest) 0 [] [] = P at hP ⊢
  obtain ⟨keep, g⟩ := P
  simp only at hP ⊢
  obtain ⟨p1, p2, p3, p4⟩ := hP
  rw [List.length_map] at p1 p3 p4
  have hg := hperm g
  have hb : ∀ q, ∀ v ∈ lay, (idxFor (l.objects.map dest) q l.objects.length).length * v < 2 ^ 32 := by
    intro q v hv
    exact Nat.lt_of_le_of_lt (Nat.mul_le_mul_right v (idxFor_lt _ _ _).2) (hsz v hv)
  obtain ⟨ex1, E, s1, s2, s3⟩ := sendLoop_ok hne hlp garbage order ho cur hl (perm g) ex ((hg.map _).nodup_iff.2 p2)
    (fun e he gv _ hc => hex e he (by rw [hc])) (by
      rintro ⟨q, v⟩ hgv
      obtain ⟨-, a, -⟩ := p3 q v (hg.mem_iff.1 hgv)
      subst a
      exact ⟨(idxFor_lt _ _ _).1, hb q⟩)
  obtain ⟨l1, k1, k2, k3⟩ := good_keep hne garbage (order cur) (ho cur) hl keep (by rw [p1]; exact (idxFor_lt _ _ _).1) (by rw [p1]; exact hb cur)
  refine ⟨l1, ex1, E, s1, k1, k2, by rw [k3, p1, idxFor_objects hne hl], s2, ?_, ?_⟩
  · intro e he
    obtain ⟨j, hj, hje⟩ := List.getElem_of_mem he
    have hlen := s3.length_eq
    have hf2 := (List.forall₂_iff_get.1 s3).2 j (by omega) hj
    simp only [List.get_eq_getElem] at hf2
    rw [hje] at hf2
    have hmem : (perm g)[j]'(by omega) ∈ g := hg.mem_iff.1 (List.getElem_mem _)
    obtain ⟨-, -, i, hi, hid⟩ := p3 _ _ hmem
    refine ⟨hf2.2.1, by rw [hf2.1], ?_⟩
    rw [hf2.1]
    rw [List.getElem?_map] at hid
    rw [List.getElem?_eq_getElem hi] at hid
    simp only [Option.map_some, Option.some.injEq] at hid
    exact ⟨_, List.getElem_mem hi, hid⟩
  · intro q
    rw [sent_to cur l (fun q => l.objects.filter fun o => dest o == q) (perm g) E ((hg.map _).nodup_iff.2 p2) (by
      rintro ⟨q, v⟩ hgv
      obtain ⟨-, a, -⟩ := p3 q v (hg.mem_iff.1 hgv)
      rw [a]
      exact idxFor_objects hne hl dest q) s3 q]
    by_cases hqc : q = cur
    · rw [if_pos hqc, if_neg]
      intro hm
      obtain ⟨gv, hgv, rfl⟩ := List.mem_map.1 hm
      exact (p3 gv.1 gv.2 (hg.mem_iff.1 hgv)).1 hqc
    · rw [if_neg hqc]
      by_cases hm : q ∈ (perm g).map (·.1)
      · rw [if_pos hm]
      · rw [if_neg hm]
        symm
        rw [List.filter_eq_nil_iff]
        intro o ho hoq
        obtain ⟨i, hi, hio⟩ := List.getElem_of_mem ho
        exact hm ((hg.map _).mem_iff.2 (p4 i hi q (by rw [List.getElem?_map, List.getElem?_eq_getElem hi, hio]; simpa using hoq) hqc))

theorem extractAll_ok {α : Type} {lay : List Nat} (hne : lay ≠ []) (hlp : ∀ n ∈ lay, 0 < n) (garbage : Nat → α) (order : Nat → Nat → Nat → Nat → List Nat)
    (ho : ∀ c q k, GoodOrder (order c q k)) (perm : Nat → List (Nat × List Nat) → List (Nat × List Nat)) (hperm : ∀ c g, (perm c g).Perm g) (dest : List (List α) → Nat)
    (nids : List (Nat × List Nat)) : ∀ (d : RankData α) (ex : List ((Nat × Nat) × PLayer α)), (d.map (·.1)).Nodup →
    (∀ kv ∈ d, kv.2.Good lay ∧ (∀ v ∈ lay, kv.2.objects.length * v < 2 ^ 32) ∧ (kv.2.objects ≠ [] → mfind nids kv.1 = some (kv.2.objects.map dest))) →
    (∀ e ∈ ex, e.1.1 ∉ d.map (·.1)) →
    ∃ d' ex' E, extractAll garbage order perm lay nids d ex = .ok (d', ex') ∧
      List.Forall₂ (fun (kv kv' : Nat × PLayer α) => kv'.1 = kv.1 ∧ kv'.2.Good lay ∧ kv'.2.objects = kv.2.objects.filter (fun o => dest o == kv.1)) d d' ∧
      ex'.Perm (ex ++ E) ∧
      (∀ e ∈ E, e.2.Good lay ∧ ∃ kv ∈ d, e.1.1 = kv.1 ∧ ∃ o ∈ kv.2.objects, dest o = e.1.2) ∧
      ∀ q, (E.filter fun e => e.1.2 == q).flatMap (fun e => e.2.objects) = d.flatMap fun kv => if q = kv.1 then [] else kv.2.objects.filter (fun o => dest o == q) := by
  intro d
  induction d with
  | nil => intro ex _ _ _; exact ⟨[], ex, [], rfl, .nil, by simp, by simp, by simp⟩
  | cons kv d ih =>
    intro ex hn hd hex
    obtain ⟨cur, l⟩ := kv
    rw [List.map_cons, List.nodup_cons] at hn
    obtain ⟨hl, hsz, hfd⟩ := hd (cur, l) List.mem_cons_self
    simp only at hl hsz hfd
    have hd' := fun kv h => hd kv (List.mem_cons_of_mem _ h)
    by_cases h0 : l.objects.length ≠ 0
    · obtain ⟨l1, ex1, E, s1, s2, s3, s4, s5, s6, s7⟩ := extract_patch hne hlp garbage (order cur) (ho cur) (perm cur) (hperm cur) dest cur hl hsz ex
        (fun e he hc => hex e he (by rw [hc]; exact List.mem_cons_self))
      obtain ⟨d', ex', E', t1, t2, t3, t4, t5⟩ := ih ex1 hn.2 hd' (by
        intro e he
        rcases List.mem_append.1 (s5.mem_iff.1 he) with he | he
        · exact fun hc => hex e he (List.mem_cons_of_mem _ hc)
        · rw [(s6 e he).2.1]; exact hn.1)
      refine ⟨(cur, l1) :: d', ex', E ++ E', ?_, .cons ⟨rfl, s3, s4⟩ t2, ?_, ?_, ?_⟩
      · simp only [extractAll]
        rw [(good_count hne hl).2.2]
        simp only [Res.bind]
        rw [if_pos h0, hfd (fun h => h0 (by rw [h]; rfl))]
        simp only
        rw [s1]
        simp only
        rw [s2]
        simp only
        rw [t1]
      · refine t3.trans ((s5.append_right E').trans ?_)
        rw [List.append_assoc]
      · intro e he
        rcases List.mem_append.1 he with he | he
        · exact ⟨(s6 e he).1, (cur, l), List.mem_cons_self, (s6 e he).2⟩
        · obtain ⟨a, kv, b, c⟩ := t4 e he
          exact ⟨a, kv, List.mem_cons_of_mem _ b, c⟩
      · intro q
        rw [List.filter_append, List.flatMap_append, s7, t5, List.flatMap_cons]
    · obtain ⟨d', ex', E', t1, t2, t3, t4, t5⟩ := ih ex hn.2 hd' (fun e he hc => hex e he (List.mem_cons_of_mem _ hc))
      have hnil : l.objects = [] := List.eq_nil_of_length_eq_zero (by omega)
      refine ⟨(cur, l) :: d', ex', E', ?_, .cons ⟨rfl, hl, by rw [hnil]; rfl⟩ t2, t3, ?_, ?_⟩
      · simp only [extractAll]
        rw [(good_count hne hl).2.2]
        simp only [Res.bind]
        rw [if_neg h0, t1]
      · intro e he
        obtain ⟨a, kv, b, c⟩ := t4 e he
        exact ⟨a, kv, List.mem_cons_of_mem _ b, c⟩
      · intro q
        rw [t5, List.flatMap_cons]
        simp only [hnil, List.filter_nil, ite_self, List.nil_append]

/-! ### Insertion -/

theorem insertInto_ok {α : Type} {lay : List Nat} (hne : lay ≠ []) {p : PLayer α} (hp : p.Good lay) (q : Nat) : ∀ (d : RankData α), (d.map (·.1)).Nodup →
    q ∈ d.map (·.1) → (∀ kv ∈ d, kv.2.Good lay ∧ (kv.1 = q → ∀ v ∈ lay, (kv.2.objects.length + p.objects.length) * v < 2 ^ 32)) →
    ∃ d', insertInto p q d = .ok d' ∧
      List.Forall₂ (fun (kv kv' : Nat × PLayer α) => kv'.1 = kv.1 ∧ kv'.2.Good lay ∧ kv'.2.objects = kv.2.objects ++ if kv.1 = q then p.objects else []) d d' := by
  intro d
  induction d with
  | nil => intro _ h; cases h
  | cons kv d ih =>
    intro hn hq hd
    obtain ⟨id, l⟩ := kv
    rw [List.map_cons, List.nodup_cons] at hn
    obtain ⟨hl, hs⟩ := hd (id, l) List.mem_cons_self
    simp only [insertInto]
    by_cases h : id = q
    · rw [if_pos h]
      obtain ⟨l', a, b, c⟩ := good_insert hne hl hp (hs h)
      refine ⟨(id, l') :: d, by rw [a]; rfl, .cons ⟨rfl, b, by rw [if_pos h]; exact c⟩ ?_⟩
      rw [List.forall₂_same]
      intro kv hkv
      refine ⟨rfl, (hd kv (List.mem_cons_of_mem _ hkv)).1, ?_⟩
      rw [if_neg, List.append_nil]
      intro hc
      exact hn.1 (by rw [h, ← hc]; exact List.mem_map_of_mem (f := (·.1)) hkv)
    · rw [if_neg h]
      obtain ⟨d', a, b⟩ := ih hn.2 ((List.mem_cons.1 hq).resolve_left (fun hc => h hc.symm)) (fun kv hkv => hd kv (List.mem_cons_of_mem _ hkv))
      exact ⟨(id, l) :: d', by rw [a]; rfl, .cons ⟨rfl, hl, by rw [if_neg h, List.append_nil]⟩ b⟩

theorem forall2_fst {β γ : Type} {R : Nat × β → Nat × γ → Prop} (hR : ∀ a b, R a b → b.1 = a.1) {d : List (Nat × β)} {d' : List (Nat × γ)} (h : List.Forall₂ R d d') :
    d'.map (·.1) = d.map (·.1) := by
  induction h with
  | nil => rfl
  | cons a _ ih => rw [List.map_cons, List.map_cons, ih, hR _ _ a]

theorem forall2_trans {β : Type} {R S T : β → β → Prop} (h : ∀ a b c, R a b → S b c → T a c) : ∀ {x y z : List β}, List.Forall₂ R x y → List.Forall₂ S y z → List.Forall₂ T x z := by
  intro x y z h1
  induction h1 generalizing z with
  | nil => intro h2; cases h2; exact .nil
  | cons a _ ih =>
    intro h2
    cases h2 with
    | cons b t => exact .cons (h _ _ _ a b) (ih t)

theorem forall2_mem_right {β γ : Type} {R : β → γ → Prop} {x : List β} {y : List γ} (h : List.Forall₂ R x y) : ∀ b ∈ y, ∃ a ∈ x, R a b := by
  induction h with
  | nil => intro b hb; cases hb
  | cons a t ih =>
    intro b hb
    rcases List.mem_cons.1 hb with rfl | hb
    · exact ⟨_, List.mem_cons_self, a⟩
    · obtain ⟨c, h1, h2⟩ := ih b hb
      exact ⟨c, List.mem_cons_of_mem _ h1, h2⟩

theorem insertRecv_ok {α : Type} {lay : List Nat} (hne : lay ≠ []) : ∀ (X : List ((Nat × Nat) × PLayer α)) (d : RankData α),
    (d.map (·.1)).Nodup → (∀ e ∈ X, e.2.Good lay ∧ e.1.2 ∈ d.map (·.1)) → (∀ kv ∈ d, kv.2.Good lay) →
    (∀ kv ∈ d, ∀ v ∈ lay, (kv.2.objects.length + ((X.filter fun e => e.1.2 == kv.1).flatMap fun e => e.2.objects).length) * v < 2 ^ 32) →
    ∃ d', insertRecv X d = .ok d' ∧
      List.Forall₂ (fun (kv kv' : Nat × PLayer α) => kv'.1 = kv.1 ∧ kv'.2.Good lay ∧
        kv'.2.objects = kv.2.objects ++ (X.filter fun e => e.1.2 == kv.1).flatMap fun e => e.2.objects) d d' := by
  intro X
  induction X with
  | nil =>
    intro d _ _ hd _
    refine ⟨d, rfl, ?_⟩
    rw [List.forall₂_same]
    intro kv hkv
    exact ⟨rfl, hd kv hkv, by simp⟩
  | cons e X ih =>
    intro d hn hX hd hb
    obtain ⟨k, p⟩ := e
    obtain ⟨hp, hk⟩ := hX (k, p) List.mem_cons_self
    simp only at hp hk
    obtain ⟨d1, a1, a2⟩ := insertInto_ok hne hp k.2 d hn hk (fun kv hkv => ⟨hd kv hkv, fun hq v hv => by
      have := hb kv hkv v hv
      rw [List.filter_cons_of_pos (by simpa using hq.symm), List.flatMap_cons, List.length_append] at this
      refine Nat.lt_of_le_of_lt (Nat.mul_le_mul_right v ?_) this
      show _ ≤ kv.2.objects.length + (p.objects.length + _)
      omega⟩)
    have hf := forall2_fst (fun _ _ h => h.1) a2
    obtain ⟨d2, b1, b2⟩ := ih d1 (by rw [hf]; exact hn) (fun e he => by rw [hf]; exact hX e (List.mem_cons_of_mem _ he)) (by
      intro kv hkv
      obtain ⟨_, _, c⟩ := forall2_mem_right a2 kv hkv
      exact c.2.1) (by
      intro kv hkv
      obtain ⟨kv0, h0, c⟩ := forall2_mem_right a2 kv hkv
      intro v hv
      have := hb kv0 h0 v hv
      rw [c.2.2, List.length_append, c.1]
      by_cases hq : kv0.1 = k.2
      · rw [if_pos hq]
        rw [List.filter_cons_of_pos (by simpa using hq.symm), List.flatMap_cons, List.length_append] at this
        rwa [Nat.add_assoc]
      · rw [if_neg hq]
        rw [List.filter_cons_of_neg (by simpa using (fun hc => hq hc.symm))] at this
        exact this)
    refine ⟨d2, ?_, forall2_trans ?_ a2 b2⟩
    · simp only [insertRecv]
      rw [a1]; exact b1
    · rintro kv kv1 kv2 ⟨r1, r2, r3⟩ ⟨s1, s2, s3⟩
      refine ⟨s1.trans r1, s2, ?_⟩
      rw [s3, r3, r1]
      by_cases h : kv.1 = k.2
      · rw [if_pos h, List.filter_cons_of_pos (by simpa using h.symm), List.flatMap_cons, List.append_assoc]
      · rw [if_neg h, List.filter_cons_of_neg (by simpa using (fun hc => h hc.symm)), List.append_nil]

end Shamrock
