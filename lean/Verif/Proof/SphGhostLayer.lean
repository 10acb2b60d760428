import Verif.Proof.SphGhostFind
import Verif.Props.Split
import Verif.Props.Field
/-! Proofs about the ghost layers: index tables, construction, merge. -/
namespace Shamrock

section
variable {F : Type}

/-- Specification: the layer holding the particles `ps` (position and smoothing length), one value per object. -/
def mkPart (ps : List (V3 F × F)) : PartData F := ⟨⟨1, ps.map (·.1)⟩, ⟨1, ps.map (·.2)⟩⟩

/-- The particles of a layer. -/
def PartData.parts (p : PartData F) : List (V3 F × F) := p.pos.buf.zip p.h.buf

theorem parts_mkPart (ps : List (V3 F × F)) : (mkPart ps).parts = ps := by
  unfold PartData.parts mkPart
  induction ps with
  | nil => rfl
  | cons p ps ih => simp only [List.map_cons, List.zip_cons_cons] at ih ⊢; rw [ih]

theorem mkPart_parts {p : PartData F} (h : ∃ ps, p = mkPart ps) : mkPart p.parts = p := by
  obtain ⟨ps, rfl⟩ := h
  rw [parts_mkPart]

theorem one_wf {α : Type} (l : List α) (h : l.length < 2 ^ 32) : (PField.mk 1 l).WF := ⟨Nat.one_pos, one_dvd _, h⟩

theorem one_count {α : Type} (l : List α) : (PField.mk 1 l).count = l.length := Nat.div_one _

theorem one_obj {α : Type} (l : List α) (k : Nat) (hk : k < l.length) : (PField.mk 1 l).obj k = [l[k]] := by
  unfold PField.obj
  rw [Nat.mul_one, List.drop_eq_getElem_cons hk]
  rfl

theorem one_objCnt {α : Type} (l : List α) (h : l.length < 2 ^ 32) : (PField.mk 1 l).objCnt = .ok l.length := by
  rw [objCnt_ok (one_wf l h), one_count]

/-- The indices of the elements satisfying a test. -/
def selIdx {α : Type} (p : α → Bool) (l : List α) : List Nat := (List.range l.length).filter fun i => (l[i]?.map p).getD false

theorem selIdx_values {α : Type} (p : α → Bool) (l : List α) : (selIdx p l).filterMap (fun i => l[i]?) = l.filter p := by
  induction l using List.reverseRecOn with
  | nil => rfl
  | append_singleton l a ih =>
    unfold selIdx at ih ⊢
    rw [List.length_append, List.length_singleton, List.range_succ, List.filter_append, List.filterMap_append, List.filter_append]
    congr 1
    · rw [← ih]
      have h1 : ∀ i ∈ List.range l.length, (((l ++ [a])[i]?.map p).getD false) = ((l[i]?.map p).getD false) := by
        intro i hi
        rw [List.getElem?_append_left (List.mem_range.1 hi)]
      rw [List.filter_congr h1]
      refine List.filterMap_congr fun i hi => ?_
      rw [List.getElem?_append_left (List.mem_range.1 (List.mem_of_mem_filter hi))]
    · by_cases hp : p a = true
      · simp [hp]
      · simp [hp]

theorem selIdx_map {α β : Type} (g : α → β) (p : β → Bool) (l : List α) : selIdx p (l.map g) = selIdx (fun a => p (g a)) l := by
  unfold selIdx
  rw [List.length_map]
  refine List.filter_congr fun i _ => ?_
  rw [List.getElem?_map, Option.map_map]
  rfl

theorem selIdx_lt {α : Type} (p : α → Bool) (l : List α) : ∀ i ∈ selIdx p l, i < l.length := fun _ hi => List.mem_range.1 (List.mem_of_mem_filter hi)

theorem selIdx_length {α : Type} (p : α → Bool) (l : List α) : (selIdx p l).length = (l.filter p).length := by
  rw [← selIdx_values, List.length_filterMap_eq_countP]
  symm
  rw [List.countP_eq_length]
  intro i hi
  rw [List.getElem?_eq_getElem (selIdx_lt p l i hi)]
  rfl

theorem idsWhere_one {α : Type} (l : List α) (h : l.length < 2 ^ 32) (cd : α → Bool) : (PField.mk 1 l).idsWhere cd = .ok (selIdx cd l) := by
  unfold PField.idsWhere
  rw [one_objCnt l h]
  simp only [Res.ok_bind]
  rw [idsWhere_fold l 1 cd fun i => (l[i]?.map cd).getD false]
  · rfl
  · intro i hi
    rw [List.mem_range] at hi
    refine ⟨l[i], ?_, ?_⟩
    · rw [show u32mul i 1 = i by unfold u32mul; omega]
      exact List.getElem?_eq_getElem hi
    · rw [List.getElem?_eq_getElem hi]; rfl

theorem appendSubset_one {α : Type} (garbage : Nat → α) (order : Nat → List Nat) (ho : GoodOrder order) (l : List α) (h : l.length < 2 ^ 32) (idxs : List Nat)
    (hi : ∀ i ∈ idxs, i < l.length) (hn : idxs.length ≤ l.length) :
    (PField.mk 1 l).appendSubset garbage order idxs idxs.length ⟨1, []⟩ = .ok ⟨1, idxs.filterMap fun i => l[i]?⟩ := by
  obtain ⟨pf, h1, h2, h3, h4⟩ := C39_append_subset garbage order ho ⟨1, l⟩ ⟨1, []⟩ (one_wf l h) (one_wf [] (by rw [List.length_nil]; exact Nat.two_pow_pos 32)) rfl idxs
    (by rw [one_count]; exact hi) (by rw [one_count]; simp; omega)
  rw [h1]
  obtain ⟨nv, buf⟩ := pf
  dsimp only at h2
  subst h2
  have hb := buf_eq_flatten h3
  dsimp only at hb
  rw [hb, h4]
  have : (PField.mk 1 ([] : List α)).objs = [] := by unfold PField.objs; rw [one_count]; rfl
  rw [this, List.nil_append]
  congr 2
  clear h1 hb h4 hn
  induction idxs with
  | nil => rfl
  | cons i is ih =>
    have hlt := hi i List.mem_cons_self
    rw [List.map_cons, List.flatten_cons, one_obj l i hlt, List.filterMap_cons, List.getElem?_eq_getElem hlt, ih fun j hj => hi j (List.mem_cons_of_mem _ hj)]
    rfl

variable [LinearOrder F]

/-- The test of gen_id_table_interfaces. -/
def inCut (e : Interf F) (p : V3 F × F) : Bool := inPatchConverted p.1 e.cut.lower e.cut.upper

/-- An entry of the index table. -/
def tabOf (psOf : Nat → List (V3 F × F)) (e : (Nat × Nat) × Interf F) : Option ((Nat × Nat) × (Interf F × List Nat)) :=
  if (selIdx (inCut e.2) (psOf e.1.1)).length = 0 then none else some (e.1, (e.2, selIdx (inCut e.2) (psOf e.1.1)))

theorem genIdTable_ok (data : List (Nat × PartData F)) (psOf : Nat → List (V3 F × F)) : ∀ (es : List ((Nat × Nat) × Interf F))
    (res : List ((Nat × Nat) × (Interf F × List Nat))), MMOk res →
    (∀ e ∈ es, mfind data e.1.1 = some (mkPart (psOf e.1.1)) ∧ (psOf e.1.1).length < 2 ^ 32) →
    ∃ res', genIdTable data es res = .ok res' ∧ MMOk res' ∧ KeyEq res' (res ++ es.filterMap (tabOf psOf)) := by
  intro es
  induction es with
  | nil => intro res h _; exact ⟨res, rfl, h, by rw [List.filterMap_nil, List.append_nil]; exact KeyEq.refl _⟩
  | cons e es ih =>
    intro res h he
    obtain ⟨h1, h2⟩ := he e List.mem_cons_self
    have hw : (mkPart (psOf e.1.1)).pos.idsWhere (fun x => inPatchConverted x e.2.cut.lower e.2.cut.upper) = .ok (selIdx (inCut e.2) (psOf e.1.1)) := by
      unfold mkPart
      rw [idsWhere_one _ (by rw [List.length_map]; exact h2), selIdx_map]
      rfl
    rw [genIdTable, h1]
    dsimp only
    rw [hw]
    dsimp only [Res.bind]
    rw [List.filterMap_cons]
    unfold tabOf
    by_cases h0 : (selIdx (inCut e.2) (psOf e.1.1)).length = 0
    · rw [if_pos h0, if_pos h0]
      exact ih res h fun e' he' => he e' (List.mem_cons_of_mem _ he')
    · rw [if_neg h0, if_neg h0]
      obtain ⟨r, a1, a2, a3⟩ := ih _ (mmEmplace_ok res _ h) fun e' he' => he e' (List.mem_cons_of_mem _ he')
      refine ⟨r, a1, a2, a3.trans ?_⟩
      have := (mmEmplace_keyEq res (e.1, (e.2, selIdx (inCut e.2) (psOf e.1.1))) h).append (KeyEq.refl (es.filterMap (tabOf psOf)))
      rw [List.append_assoc] at this
      exact this

variable [Add F]

/-- Specification: the particles of an interface, moved. -/
def entGhosts (psOf : Nat → List (V3 F × F)) (e : (Nat × Nat) × Interf F) : List (V3 F × F) :=
  ((psOf e.1.1).filter (inCut e.2)).map fun p => (p.1.addv e.2.off, p.2)

theorem buildGhost_ok (garbage : Nat → V3 F) (garbageH : Nat → F) (order : Nat → List Nat) (ho : GoodOrder order) (data : List (Nat × PartData F))
    (psOf : Nat → List (V3 F × F)) (e : (Nat × Nat) × Interf F) (h1 : mfind data e.1.1 = some (mkPart (psOf e.1.1))) (h2 : (psOf e.1.1).length < 2 ^ 32)
    (h0 : (selIdx (inCut e.2) (psOf e.1.1)).length ≠ 0) :
    buildGhost garbage garbageH order data (e.1, (e.2, selIdx (inCut e.2) (psOf e.1.1))) = .ok (e.1, mkPart (entGhosts psOf e)) := by
  have hi := selIdx_lt (inCut e.2) (psOf e.1.1)
  have hle : (selIdx (inCut e.2) (psOf e.1.1)).length ≤ (psOf e.1.1).length := by rw [selIdx_length]; exact List.length_filter_le _ _
  have hv := selIdx_values (inCut e.2) (psOf e.1.1)
  unfold buildGhost
  dsimp only
  rw [if_neg h0, h1]
  dsimp only
  unfold mkPart
  dsimp only
  rw [appendSubset_one garbage order ho _ (by rw [List.length_map]; exact h2) _ (by rw [List.length_map]; exact hi) (by rw [List.length_map]; exact hle)]
  dsimp only [Res.bind]
  rw [appendSubset_one garbageH order ho _ (by rw [List.length_map]; exact h2) _ (by rw [List.length_map]; exact hi) (by rw [List.length_map]; exact hle)]
  dsimp only [Res.bind]
  have hm : ∀ {β : Type} (g : V3 F × F → β), (selIdx (inCut e.2) (psOf e.1.1)).filterMap (fun i => ((psOf e.1.1).map g)[i]?) = ((psOf e.1.1).filter (inCut e.2)).map g := by
    intro β g
    rw [← hv, List.map_filterMap]
    refine List.filterMap_congr fun i _ => ?_
    rw [List.getElem?_map]
  rw [hm, hm]
  unfold entGhosts
  rw [List.map_map, List.map_map, List.map_map]
  rfl

theorem buildGhosts_ok (garbage : Nat → V3 F) (garbageH : Nat → F) (order : Nat → Nat → List Nat) (ho : ∀ i, GoodOrder (order i)) (data : List (Nat × PartData F))
    (psOf : Nat → List (V3 F × F)) : ∀ (es : List ((Nat × Nat) × (Interf F × List Nat))) (i : Nat),
    (∀ e ∈ es, mfind data e.1.1 = some (mkPart (psOf e.1.1)) ∧ (psOf e.1.1).length < 2 ^ 32 ∧ e.2.2 = selIdx (inCut e.2.1) (psOf e.1.1) ∧ e.2.2.length ≠ 0) →
    buildGhosts garbage garbageH order data i es = .ok (es.map fun e => (e.1, mkPart (entGhosts psOf (e.1, e.2.1)))) := by
  intro es
  induction es with
  | nil => intro i _; rfl
  | cons e es ih =>
    intro i h
    obtain ⟨h1, h2, h3, h4⟩ := h e List.mem_cons_self
    have hb := buildGhost_ok garbage garbageH (order i) (ho i) data psOf (e.1, e.2.1) h1 h2 (by rw [← h3]; exact h4)
    obtain ⟨k, it, ix⟩ := e
    dsimp only at h3 hb
    rw [← h3] at hb
    rw [buildGhosts, hb, ih (i + 1) fun e' he' => h e' (List.mem_cons_of_mem _ he')]
    rfl

/-- What one pair of patches and one shift contribute to the ghosts. -/
def ghostsOf [Sub F] [Neg F] (rho : Nat → F) (bS bR : Box F) (S R : Nat) (ps : List (V3 F × F)) (sh : Shift F) : List (V3 F × F) :=
  if (S = R ∧ sh.1 = ⟨0, 0, 0⟩) ∨ Touches bS bR (rho R) sh.2 = false then []
  else (ps.filter fun p => inPatchConverted p.1 (bS.intersect ((bR.expandAll (rho R)).addOffset sh.2.negv)).lower
    (bS.intersect ((bR.expandAll (rho R)).addOffset sh.2.negv)).upper).map fun p => (p.1.addv sh.2, p.2)

omit [LinearOrder F] [Add F] in
theorem flatMap_keyEq {V W : Type} (f : (Nat × Nat) × V → List W) {a b : List ((Nat × Nat) × V)} (h : KeyEq a b) (k : Nat × Nat) :
    (a.filter fun e => decide (e.1 = k)).flatMap f = (b.filter fun e => decide (e.1 = k)).flatMap f := by rw [h k]

/-- Tables and layers of one rank. -/
theorem layers_ok [Sub F] [Neg F] (garbage : Nat → V3 F) (garbageH : Nat → F) (order : Nat → Nat → List Nat) (ho : ∀ i, GoodOrder (order i))
    (data : List (Nat × PartData F)) (psOf : Nat → List (V3 F × F)) (es : List ((Nat × Nat) × Interf F))
    (he : ∀ e ∈ es, mfind data e.1.1 = some (mkPart (psOf e.1.1)) ∧ (psOf e.1.1).length < 2 ^ 32) :
    ∃ tab g, genIdTable data es [] = .ok tab ∧ buildGhosts garbage garbageH order data 0 tab = .ok g ∧ MMOk g ∧
      (∀ e ∈ g, (∃ e' ∈ es, e'.1 = e.1) ∧ ∃ ps, e.2 = mkPart ps ∧ ps.length < 2 ^ 32 ∧ ps ≠ []) ∧
      ∀ k : Nat × Nat, (g.filter fun e => decide (e.1 = k)).flatMap (fun e => e.2.parts) = (es.filter fun e => decide (e.1 = k)).flatMap (entGhosts psOf) := by
  obtain ⟨tab, h1, h2, h3⟩ := genIdTable_ok data psOf es [] (by simp [MMOk]) he
  rw [List.nil_append] at h3
  have hmem : ∀ e ∈ tab, ∃ e' ∈ es, tabOf psOf e' = some e := by
    intro e hm
    have : e ∈ tab.filter fun x => decide (x.1 = e.1) := List.mem_filter.2 ⟨hm, by simp⟩
    rw [h3 e.1] at this
    exact List.mem_filterMap.1 (List.mem_of_mem_filter this)
  have hgood : ∀ e ∈ tab, mfind data e.1.1 = some (mkPart (psOf e.1.1)) ∧ (psOf e.1.1).length < 2 ^ 32 ∧ e.2.2 = selIdx (inCut e.2.1) (psOf e.1.1) ∧ e.2.2.length ≠ 0 := by
    intro e hm
    obtain ⟨e', hm', ht⟩ := hmem e hm
    unfold tabOf at ht
    split at ht
    · cases ht
    · rename_i h0
      rw [Option.some.injEq] at ht
      subst ht
      exact ⟨(he e' hm').1, (he e' hm').2, rfl, h0⟩
  have hb := buildGhosts_ok garbage garbageH order ho data psOf tab 0 hgood
  refine ⟨tab, _, h1, hb, ?_, ?_, fun k => ?_⟩
  · unfold MMOk at *
    rw [List.pairwise_map]
    exact h2
  · intro e hm
    obtain ⟨x, hx, rfl⟩ := List.mem_map.1 hm
    obtain ⟨e', hm', ht⟩ := hmem x hx
    obtain ⟨g1, g2, g3, g4⟩ := hgood x hx
    refine ⟨⟨e', hm', ?_⟩, _, rfl, ?_, ?_⟩
    · unfold tabOf at ht
      split at ht
      · cases ht
      · rw [Option.some.injEq] at ht
        rw [← ht]
    · unfold entGhosts
      rw [List.length_map]
      exact Nat.lt_of_le_of_lt (List.length_filter_le _ _) g2
    · intro hnil
      rw [g3, selIdx_length] at g4
      apply g4
      have := congrArg List.length hnil
      unfold entGhosts at this
      rw [List.length_map] at this
      exact this
  · rw [List.filter_map, List.flatMap_map]
    show (tab.filter fun e => decide (e.1 = k)).flatMap (fun e => (mkPart (entGhosts psOf (e.1, e.2.1))).parts) = _
    rw [h3 k]
    clear h1 h2 h3 hmem hgood hb he
    induction es with
    | nil => rfl
    | cons e es ih =>
      rw [List.filterMap_cons]
      have key : ∀ x, tabOf psOf e = some x → x.1 = e.1 ∧ x.2.1 = e.2 := by
        intro x hx
        unfold tabOf at hx
        split at hx
        · cases hx
        · rw [Option.some.injEq] at hx; subst hx; exact ⟨rfl, rfl⟩
      have knone : tabOf psOf e = none → entGhosts psOf e = [] := by
        intro hx
        unfold tabOf at hx
        split at hx
        · rename_i h0
          rw [selIdx_length] at h0
          unfold entGhosts
          rw [List.length_eq_zero_iff.1 h0]; rfl
        · cases hx
      rcases ht : tabOf psOf e with _ | x
      · dsimp only
        rw [ih, List.filter_cons]
        by_cases hk : e.1 = k
        · rw [if_pos (by simpa using hk), List.flatMap_cons, knone ht]; rfl
        · rw [if_neg (by simpa using hk)]
      · dsimp only
        obtain ⟨k1, k2⟩ := key x ht
        rw [List.filter_cons, List.filter_cons, k1]
        by_cases hk : e.1 = k
        · rw [if_pos (by simpa using hk), if_pos (by simpa using hk), List.flatMap_cons, List.flatMap_cons, ih, parts_mkPart, k1, k2]
        · rw [if_neg (by simpa using hk), if_neg (by simpa using hk), ih]

theorem pairEntry_ghosts [Sub F] [Neg F] (rho : Nat → F) (bS bR : Box F) (S R : Nat) (psOf : Nat → List (V3 F × F)) (shs : List (Shift F)) :
    (shs.flatMap (pairEntry rho bS bR S R)).flatMap (entGhosts psOf) = shs.flatMap (ghostsOf rho bS bR S R (psOf S)) := by
  rw [List.flatMap_assoc]
  congr 1
  funext sh
  unfold pairEntry ghostsOf
  split
  · rfl
  · rw [List.flatMap_singleton]; rfl

/-! ### Merge -/

omit [LinearOrder F] [Add F] in
theorem checkMatch_ok (ps : List (V3 F × F)) (h : ps.length < 2 ^ 32) : (mkPart ps).checkMatch = .ok () := by
  unfold PartData.checkMatch mkPart
  dsimp only
  rw [one_objCnt _ (by rw [List.length_map]; exact h)]
  dsimp only [Res.bind]
  rw [one_objCnt _ (by rw [List.length_map]; exact h)]
  dsimp only [Res.bind]
  rw [List.length_map, List.length_map, if_pos rfl]

omit [LinearOrder F] [Add F] in
theorem appendAll_ok (id : Nat) : ∀ (recv : List ((Nat × Nat) × PartData F)) (own : List (V3 F × F)), (∀ e ∈ recv, ∃ ps, e.2 = mkPart ps) →
    (own ++ (recv.filter fun e => decide (e.1.2 = id)).flatMap fun e => e.2.parts).length < 2 ^ 32 →
    appendAll id recv (mkPart own) = .ok (mkPart (own ++ (recv.filter fun e => decide (e.1.2 = id)).flatMap fun e => e.2.parts)) := by
  intro recv
  induction recv with
  | nil => intro own _ _; simp [appendAll]
  | cons e r ih =>
    intro own h hl
    obtain ⟨ps, hps⟩ := h e List.mem_cons_self
    rw [appendAll]
    rw [List.filter_cons] at hl ⊢
    by_cases hid : e.1.2 = id
    · rw [if_pos (by simpa using hid)] at hl
      rw [if_pos hid, if_pos (by simpa using hid)]
      dsimp only
      rw [List.flatMap_cons, ← List.append_assoc] at hl ⊢
      rw [hps, parts_mkPart] at hl ⊢
      have hins : (⟨(mkPart own).pos.insert (mkPart ps).pos, (mkPart own).h.insert (mkPart ps).h⟩ : PartData F) = mkPart (own ++ ps) := by
        unfold mkPart PField.insert
        rw [List.map_append, List.map_append]
      rw [hins, checkMatch_ok _ (by rw [List.length_append] at hl; omega)]
      dsimp only [Res.bind]
      exact ih (own ++ ps) (fun e' he' => h e' (List.mem_cons_of_mem _ he')) hl
    · rw [if_neg (by simpa using hid)] at hl
      rw [if_neg hid, if_neg (by simpa using hid)]
      exact ih own (fun e' he' => h e' (List.mem_cons_of_mem _ he')) hl

omit [LinearOrder F] [Add F] in
theorem mergePositions_ok (recv : List ((Nat × Nat) × PartData F)) (hr : ∀ e ∈ recv, ∃ ps, e.2 = mkPart ps) (psOf : Nat → List (V3 F × F)) :
    ∀ (data : List (Nat × PartData F)), (∀ p ∈ data, p.2 = mkPart (psOf p.1) ∧ p.1 ≠ u64max ∧
      (psOf p.1 ++ (recv.filter fun e => decide (e.1.2 = p.1)).flatMap fun e => e.2.parts).length < 2 ^ 32) →
    mergePositions recv data = .ok ((data.filter fun p => decide (psOf p.1 ≠ [])).map fun p =>
      (p.1, mkPart (psOf p.1 ++ (recv.filter fun e => decide (e.1.2 = p.1)).flatMap fun e => e.2.parts))) := by
  intro data
  induction data with
  | nil => intro _; rfl
  | cons p ps ih =>
    intro h
    obtain ⟨h1, h2, h3⟩ := h p List.mem_cons_self
    have hl : (psOf p.1).length < 2 ^ 32 := by rw [List.length_append] at h3; omega
    rw [mergePositions, h1]
    have hc : (mkPart (psOf p.1)).pos.objCnt = .ok (psOf p.1).length := by
      unfold mkPart
      dsimp only
      rw [one_objCnt _ (by rw [List.length_map]; exact hl), List.length_map]
    rw [hc]
    dsimp only [Res.bind]
    rw [List.filter_cons, ih fun q hq => h q (List.mem_cons_of_mem _ hq)]
    by_cases h0 : psOf p.1 = []
    · rw [if_pos (Or.inr (by rw [h0]; rfl)), if_neg (by simpa using h0)]
    · have hlen : (psOf p.1).length ≠ 0 := fun hh => h0 (List.length_eq_zero_iff.1 hh)
      rw [if_neg (by rintro (hh | hh); exacts [h2 hh, hlen hh]), if_pos (by simpa using h0)]
      have hins : (⟨(⟨1, []⟩ : PField (V3 F)).insert (mkPart (psOf p.1)).pos, (⟨1, []⟩ : PField F).insert (mkPart (psOf p.1)).h⟩ : PartData F) = mkPart (psOf p.1) := by
        unfold mkPart PField.insert
        rfl
      rw [hins, checkMatch_ok _ hl]
      dsimp only [Res.bind]
      rw [appendAll_ok p.1 recv (psOf p.1) hr h3]
      dsimp only [Res.bind]
      rfl

/-! ### Order of the received entries -/

omit [LinearOrder F] [Add F] in
/-- In a well formed container the entries for one receiver come by increasing sender. -/
theorem by_sender {V : Type} (m : List ((Nat × Nat) × V)) (hm : MMOk m) (R : Nat) (ss : List Nat) (hs : ss.Pairwise (· < ·)) (hall : ∀ e ∈ m, e.1.2 = R → e.1.1 ∈ ss) :
    (m.filter fun e => decide (e.1.2 = R)) = ss.flatMap fun S => m.filter fun e => decide (e.1 = (S, R)) := by
  refine keyEq_eq _ _ ?_ ?_ fun k => ?_
  · exact List.Pairwise.sublist List.filter_sublist hm
  · clear hall
    induction ss with
    | nil => simp [MMOk]
    | cons S ss ih =>
      rw [List.pairwise_cons] at hs
      rw [List.flatMap_cons]
      refine List.pairwise_append.2 ⟨List.Pairwise.sublist List.filter_sublist hm, ih hs.2, fun a ha b hb => ?_⟩
      have h1 := (List.mem_filter.1 ha).2
      obtain ⟨S', hS', hb'⟩ := List.mem_flatMap.1 hb
      have h2 := (List.mem_filter.1 hb').2
      simp only [decide_eq_true_eq] at h1 h2
      rw [h1, h2]
      have := hs.1 S' hS'
      simp [pairLt]
      omega
  · rw [List.filter_filter, List.filter_flatMap]
    have hnd : ss.Nodup := hs.imp fun h => Nat.ne_of_lt h
    by_cases hk : k.2 = R
    · have e1 : (m.filter fun e => decide (e.1 = k) && decide (e.1.2 = R)) = m.filter fun e => decide (e.1 = k) := by
        refine List.filter_congr fun e _ => ?_
        by_cases h : e.1 = k
        · simp [h, hk]
        · simp [h]
      rw [e1]
      by_cases hmem : k.1 ∈ ss
      · clear hall hs e1
        induction ss with
        | nil => cases hmem
        | cons S ss ih =>
          rw [List.nodup_cons] at hnd
          rw [List.flatMap_cons, List.filter_filter]
          by_cases hS : S = k.1
          · have e2 : (m.filter fun e => decide (e.1 = k) && decide (e.1 = (S, R))) = m.filter fun e => decide (e.1 = k) := by
              refine List.filter_congr fun e _ => ?_
              have : (S, R) = k := by rw [hS, ← hk]
              rw [this, Bool.and_self]
            have e3 : (ss.flatMap fun S => (m.filter fun e => decide (e.1 = (S, R))).filter fun e => decide (e.1 = k)) = [] := by
              rw [List.flatMap_eq_nil_iff]
              intro S' hS'
              rw [List.filter_filter, List.filter_eq_nil_iff]
              intro e _ hh
              simp only [Bool.and_eq_true, decide_eq_true_eq] at hh
              have : S' = k.1 := by rw [← hh.1, hh.2]
              exact hnd.1 (by rw [hS, ← this]; exact hS')
            rw [e2, e3, List.append_nil]
          · have e2 : (m.filter fun e => decide (e.1 = k) && decide (e.1 = (S, R))) = [] := by
              rw [List.filter_eq_nil_iff]
              intro e _ hh
              simp only [Bool.and_eq_true, decide_eq_true_eq] at hh
              exact hS (by rw [← hh.1, hh.2])
            rw [e2, List.nil_append]
            refine ih hnd.2 ?_
            rcases List.mem_cons.1 hmem with h | h
            · exact absurd h.symm hS
            · exact h
      · have e2 : (m.filter fun e => decide (e.1 = k)) = [] := by
          rw [List.filter_eq_nil_iff]
          intro e he hh
          simp only [decide_eq_true_eq] at hh
          exact hmem (by rw [← hh]; exact hall e he (by rw [hh]; exact hk))
        rw [e2]
        symm
        rw [List.flatMap_eq_nil_iff]
        intro S hS
        rw [List.filter_filter, List.filter_eq_nil_iff]
        intro e _ hh
        simp only [Bool.and_eq_true, decide_eq_true_eq] at hh
        exact hmem (by rw [← hh.1, hh.2]; exact hS)
    · have e1 : (m.filter fun e => decide (e.1 = k) && decide (e.1.2 = R)) = [] := by
        rw [List.filter_eq_nil_iff]
        intro e _ hh
        simp only [Bool.and_eq_true, decide_eq_true_eq] at hh
        exact hk (by rw [← hh.1]; exact hh.2)
      rw [e1]
      symm
      rw [List.flatMap_eq_nil_iff]
      intro S hS
      rw [List.filter_filter, List.filter_eq_nil_iff]
      intro e _ hh
      simp only [Bool.and_eq_true, decide_eq_true_eq] at hh
      exact hk (by rw [← hh.1, hh.2])

end
end Shamrock
