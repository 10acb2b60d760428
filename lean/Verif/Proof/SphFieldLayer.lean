import Verif.Proof.SphField
/-! The fields of the ghosts: layers, exchange, merge. -/
namespace Shamrock.Sph

section
variable {K : Type} [Field K] [LinearOrder K] [IsStrictOrderedRing K]

abbrev Row (K : Type) := K × K × V3 K × K

/-- The fields of a particle in the layers of the ghosts. -/
def rowOf (g : Gas K) : Row K := (g.h, g.u, g.v, g.omega)

def mkRows (rs : List (Row K)) : FData K := ⟨⟨1, rs.map (·.1)⟩, ⟨1, rs.map (·.2.1)⟩, ⟨1, rs.map (·.2.2.1)⟩, ⟨1, rs.map (·.2.2.2)⟩⟩

def rowsOf (f : FData K) : List (Row K) := f.h.buf.zip (f.u.buf.zip (f.v.buf.zip f.omega.buf))

omit [LinearOrder K] [IsStrictOrderedRing K] [Field K] in
theorem rowsOf_mkRows (rs : List (Row K)) : rowsOf (mkRows rs) = rs := by
  unfold rowsOf mkRows
  dsimp only
  rw [List.zip_map', List.zip_map', List.zip_map']
  exact List.map_id _

omit [LinearOrder K] [IsStrictOrderedRing K] [Field K] in
theorem mkFields_rows (gs : List (Gas K)) : mkFields gs = mkRows (gs.map rowOf) := by
  unfold mkFields mkRows
  simp only [List.map_map]
  rfl

omit [LinearOrder K] [IsStrictOrderedRing K] [Field K] in
theorem insert_rows (a b : List (Row K)) : (mkRows a).insert (mkRows b) = mkRows (a ++ b) := by
  unfold FData.insert mkRows PField.insert
  simp only [List.map_append]

/-- The rows sent by an entry of the table. -/
def entRows (gasOf : Nat → List (Gas K)) (speed : V3 Int → V3 K) (e : (Nat × Nat) × (Interf K × List Nat)) : List (Row K) :=
  e.2.2.filterMap fun i => (gasImage gasOf speed (e.1.1, i, (e.2.1.ioff, e.2.1.off))).map rowOf

structure EntOk (gasOf : Nat → List (Gas K)) (e : (Nat × Nat) × (Interf K × List Nat)) : Prop where
  ne : e.2.2.length ≠ 0
  le : e.2.2.length ≤ (gasOf e.1.1).length
  lt : ∀ i ∈ e.2.2, i < (gasOf e.1.1).length
  small : (gasOf e.1.1).length < 2 ^ 32

omit [LinearOrder K] [IsStrictOrderedRing K] [Field K] in
theorem filterMap_col {β : Type} (gs : List (Gas K)) (f : Gas K → β) (ix : List Nat) : ix.filterMap (fun i => (gs.map f)[i]?) = (ix.filterMap fun i => gs[i]?).map f := by
  rw [List.map_filterMap]
  refine List.filterMap_congr fun i _ => ?_
  rw [List.getElem?_map]

theorem buildField_ok (garbage : Nat → K) (garbageV : Nat → V3 K) (order : Nat → List Nat) (ho : GoodOrder order) (speed : V3 Int → V3 K) (data : List (Nat × FData K))
    (gasOf : Nat → List (Gas K)) (e : (Nat × Nat) × (Interf K × List Nat)) (E : EntOk gasOf e) (hd : mfind data e.1.1 = some (mkFields (gasOf e.1.1))) :
    buildField garbage garbageV order speed data e = .ok (e.1, mkRows (entRows gasOf speed e)) := by
  unfold buildField
  rw [if_neg E.ne, hd]
  have sub : ∀ {β : Type} (gb : Nat → β) (f : Gas K → β), (PField.mk 1 ((gasOf e.1.1).map f)).appendSubset gb order e.2.2 e.2.2.length ⟨1, []⟩ =
      .ok ⟨1, (e.2.2.filterMap fun i => (gasOf e.1.1)[i]?).map f⟩ := by
    intro β gb f
    rw [appendSubset_one gb order ho _ (by rw [List.length_map]; exact E.small) _ (by rw [List.length_map]; exact E.lt) (by rw [List.length_map]; exact E.le), filterMap_col]
  unfold mkFields
  dsimp only
  rw [sub, sub, sub, sub]
  dsimp only [Res.bind]
  congr 2
  have hrow : entRows gasOf speed e = (e.2.2.filterMap fun i => (gasOf e.1.1)[i]?).map fun g => rowOf (g.moved e.2.1.off (speed e.2.1.ioff)) := by
    unfold entRows gasImage
    rw [List.map_filterMap]
    refine List.filterMap_congr fun i _ => ?_
    rw [Option.map_map]
    rfl
  rw [hrow]
  unfold mkRows
  simp only [List.map_map]
  generalize (e.2.2.filterMap fun i => (gasOf e.1.1)[i]?) = gs
  congr 1
  split
  · rfl
  · rename_i h0
    rw [ne_eq, not_not] at h0
    congr 1
    refine List.map_congr_left fun g _ => ?_
    simp only [Function.comp_apply, rowOf, Gas.moved, h0, V3.addv_zero]

theorem buildFields_ok (garbage : Nat → K) (garbageV : Nat → V3 K) (order : Nat → Nat → List Nat) (ho : ∀ i, GoodOrder (order i)) (speed : V3 Int → V3 K) (data : List (Nat × FData K))
    (gasOf : Nat → List (Gas K)) : ∀ (es : List ((Nat × Nat) × (Interf K × List Nat))) (i : Nat),
    (∀ e ∈ es, EntOk gasOf e ∧ mfind data e.1.1 = some (mkFields (gasOf e.1.1))) →
    buildFields garbage garbageV order speed data i es = .ok (es.map fun e => (e.1, mkRows (entRows gasOf speed e))) := by
  intro es
  induction es with
  | nil => intro i _; rfl
  | cons e es ih =>
    intro i h
    obtain ⟨h1, h2⟩ := h e List.mem_cons_self
    rw [buildFields, buildField_ok garbage garbageV (order i) (ho i) speed data gasOf e h1 h2]
    dsimp only [Res.bind]
    rw [ih (i + 1) fun e' he' => h e' (List.mem_cons_of_mem _ he')]
    rfl

/-- The viscosity parameters sent by an entry. -/
def entAlphas (gasOf : Nat → List (Gas K)) (e : (Nat × Nat) × (Interf K × List Nat)) : List K :=
  e.2.2.filterMap fun i => (gasImage gasOf (fun _ => (⟨0, 0, 0⟩ : V3 K)) (e.1.1, i, (e.2.1.ioff, e.2.1.off))).map (·.alpha)

theorem buildAlphas_ok (garbage : Nat → K) (order : Nat → Nat → List Nat) (ho : ∀ i, GoodOrder (order i)) (data : List (Nat × PField K))
    (gasOf : Nat → List (Gas K)) : ∀ (es : List ((Nat × Nat) × (Interf K × List Nat))) (i : Nat),
    (∀ e ∈ es, EntOk gasOf e ∧ mfind data e.1.1 = some ⟨1, (gasOf e.1.1).map (·.alpha)⟩) →
    buildAlphas garbage order data i es = .ok (es.map fun e => (e.1, ⟨1, entAlphas gasOf e⟩)) := by
  intro es
  induction es with
  | nil => intro i _; rfl
  | cons e es ih =>
    intro i h
    obtain ⟨E, h2⟩ := h e List.mem_cons_self
    have hb : buildAlpha garbage (order i) data e = .ok (e.1, ⟨1, entAlphas gasOf e⟩) := by
      unfold buildAlpha
      rw [if_neg E.ne, h2]
      dsimp only
      rw [appendSubset_one garbage (order i) (ho i) _ (by rw [List.length_map]; exact E.small) _ (by rw [List.length_map]; exact E.lt) (by rw [List.length_map]; exact E.le), filterMap_col]
      dsimp only [Res.bind]
      congr 3
      unfold entAlphas gasImage
      rw [List.map_filterMap]
      refine List.filterMap_congr fun i _ => ?_
      rw [Option.map_map]
      rfl
    rw [buildAlphas, hb]
    dsimp only [Res.bind]
    rw [ih (i + 1) fun e' he' => h e' (List.mem_cons_of_mem _ he')]
    rfl

/-! ### Merge -/

omit [LinearOrder K] [IsStrictOrderedRing K] [Field K] in
theorem appendFields_ok (id : Nat) : ∀ (recv : List ((Nat × Nat) × FData K)) (own : List (Row K)), (∀ e ∈ recv, ∃ rs, e.2 = mkRows rs) →
    appendFields id recv (mkRows own) = mkRows (own ++ (recv.filter fun e => decide (e.1.2 = id)).flatMap fun e => rowsOf e.2) := by
  intro recv
  induction recv with
  | nil => intro own _; simp [appendFields]
  | cons e r ih =>
    intro own h
    obtain ⟨rs, hrs⟩ := h e List.mem_cons_self
    have ih := fun own => ih own fun e' he' => h e' (List.mem_cons_of_mem _ he')
    rw [appendFields, List.filter_cons]
    by_cases hid : e.1.2 = id
    · rw [if_pos hid, if_pos (by simpa using hid), hrs, insert_rows, ih, List.flatMap_cons, hrs, rowsOf_mkRows, List.append_assoc]
    · rw [if_neg hid, if_neg (by simpa using hid), ih]

omit [LinearOrder K] [IsStrictOrderedRing K] [Field K] in
theorem rows_cnt (rs : List (Row K)) (h : rs.length < 2 ^ 32) : (mkRows rs).h.objCnt = .ok rs.length ∧ (mkRows rs).checkMatch = .ok () := by
  have c : ∀ {β : Type} (f : Row K → β), (PField.mk 1 (rs.map f)).objCnt = .ok rs.length := by
    intro β f
    rw [one_objCnt _ (by rw [List.length_map]; exact h), List.length_map]
  refine ⟨c _, ?_⟩
  unfold FData.checkMatch mkRows
  dsimp only
  rw [c]; dsimp only [Res.bind]
  rw [c]; dsimp only [Res.bind]
  rw [c]; dsimp only [Res.bind]
  rw [c]; dsimp only [Res.bind]
  rw [if_pos ⟨rfl, rfl, rfl⟩]

omit [LinearOrder K] [IsStrictOrderedRing K] [Field K] in
theorem mergeFields_ok (recv : List ((Nat × Nat) × FData K)) (hr : ∀ e ∈ recv, ∃ rs, e.2 = mkRows rs) (gasOf : Nat → List (Gas K)) :
    ∀ (data : List (Nat × FData K)), (∀ p ∈ data, p.2 = mkFields (gasOf p.1) ∧ p.1 ≠ u64max ∧ (gasOf p.1).length < 2 ^ 32) →
    mergeFields recv data = .ok ((data.filter fun p => decide (gasOf p.1 ≠ [])).map fun p =>
      (p.1, mkRows ((gasOf p.1).map rowOf ++ (recv.filter fun e => decide (e.1.2 = p.1)).flatMap fun e => rowsOf e.2))) := by
  intro data
  induction data with
  | nil => intro _; rfl
  | cons p ps ih =>
    intro h
    obtain ⟨h1, h2, h3⟩ := h p List.mem_cons_self
    obtain ⟨c1, c2⟩ := rows_cnt ((gasOf p.1).map rowOf) (by rw [List.length_map]; exact h3)
    rw [mergeFields, h1, mkFields_rows, c1]
    dsimp only [Res.bind]
    rw [List.filter_cons, ih fun q hq => h q (List.mem_cons_of_mem _ hq), List.length_map]
    by_cases h0 : gasOf p.1 = []
    · rw [if_pos (Or.inr (by rw [h0]; rfl)), if_neg (by simpa using h0)]
    · have hlen : (gasOf p.1).length ≠ 0 := fun hh => h0 (List.length_eq_zero_iff.1 hh)
      rw [if_neg (by rintro (a | a); exacts [h2 a, hlen a]), if_pos (by simpa using h0)]
      have e0 : (⟨⟨1, []⟩, ⟨1, []⟩, ⟨1, []⟩, ⟨1, []⟩⟩ : FData K) = mkRows [] := rfl
      rw [e0, insert_rows, List.nil_append, c2]
      dsimp only
      rw [appendFields_ok p.1 recv _ hr]
      rfl

omit [LinearOrder K] [IsStrictOrderedRing K] [Field K] in
theorem mergeAlphas_ok (recv : List ((Nat × Nat) × PField K)) (gasOf : Nat → List (Gas K)) :
    ∀ (data : List (Nat × PField K)), (∀ p ∈ data, p.2 = ⟨1, (gasOf p.1).map (·.alpha)⟩ ∧ p.1 ≠ u64max ∧ (gasOf p.1).length < 2 ^ 32) →
    mergeAlphas recv data = .ok ((data.filter fun p => decide (gasOf p.1 ≠ [])).map fun p =>
      (p.1, ⟨1, (gasOf p.1).map (·.alpha) ++ (recv.filter fun e => decide (e.1.2 = p.1)).flatMap fun e => e.2.buf⟩)) := by
  have app : ∀ (id : Nat) (recv : List ((Nat × Nat) × PField K)) (own : List K),
      appendAlphas id recv ⟨1, own⟩ = ⟨1, own ++ (recv.filter fun e => decide (e.1.2 = id)).flatMap fun e => e.2.buf⟩ := by
    intro id recv
    induction recv with
    | nil => intro own; simp [appendAlphas]
    | cons e r ih =>
      intro own
      rw [appendAlphas, List.filter_cons]
      by_cases hid : e.1.2 = id
      · rw [if_pos hid, if_pos (by simpa using hid), PField.insert, ih, List.flatMap_cons, List.append_assoc]
      · rw [if_neg hid, if_neg (by simpa using hid), ih]
  intro data
  induction data with
  | nil => intro _; rfl
  | cons p ps ih =>
    intro h
    obtain ⟨h1, h2, h3⟩ := h p List.mem_cons_self
    rw [mergeAlphas, h1, one_objCnt _ (by rw [List.length_map]; exact h3)]
    dsimp only [Res.bind]
    rw [List.filter_cons, ih fun q hq => h q (List.mem_cons_of_mem _ hq), List.length_map]
    by_cases h0 : gasOf p.1 = []
    · rw [if_pos (Or.inr (by rw [h0]; rfl)), if_neg (by simpa using h0)]
    · have hlen : (gasOf p.1).length ≠ 0 := fun hh => h0 (List.length_eq_zero_iff.1 hh)
      rw [if_neg (by rintro (a | a); exacts [h2 a, hlen a]), if_pos (by simpa using h0)]
      dsimp only
      rw [app]
      rfl

end
end Shamrock.Sph
