import Verif.Proof.DTTPass
/-! The implementation with one work item per cell. -/
namespace Shamrock

theorem cells_sublist (off : Nat) : ∀ (T S : KTree), S ∈ T.subtrees → (S.cells off).Sublist (T.cells off) := by
  intro T
  induction T with
  | leaf k => intro S hS; simp only [KTree.subtrees, List.mem_singleton] at hS; subst hS; exact List.Sublist.refl _
  | node i l r ihl ihr =>
    intro S hS
    have he : (KTree.node i l r).cells off = i :: (l.cells off ++ r.cells off) := by simp [KTree.cells, KTree.subtrees, KTree.ref, cellIdx]
    simp only [KTree.subtrees, List.mem_cons, List.mem_append] at hS
    rcases hS with rfl | hS | hS
    · exact List.Sublist.refl _
    · rw [he]; exact ((ihl S hS).trans (List.sublist_append_left _ _)).cons _
    · rw [he]; exact ((ihr S hS).trans (List.sublist_append_right _ _)).cons _

theorem self_cells (off : Nat) (S : KTree) : cellIdx off S.ref ∈ S.cells off := List.mem_map.2 ⟨S, self_mem_subtrees S, rfl⟩

theorem stack_push {T : Type} {n : Nat} (hn : n < 2 ^ 32) (s : FixedStack T n) (L : List T) (v : T) (h : StackRel s L) (hl : L.length < n) :
    ∃ s', s.push v = some s' ∧ StackRel s' (v :: L) := by
  obtain ⟨s', e, r⟩ := stack_step hn s L (v :: L) (.push v) .unit h (by simp [lifoStep, hl])
  simp only [FixedStack.step, Option.map_eq_some_iff, Prod.mk.injEq, true_and] at e
  obtain ⟨s'', e1, rfl⟩ := e
  exact ⟨s'', e1, r⟩

theorem stack_pop {T : Type} {n : Nat} (hn : n < 2 ^ 32) (s : FixedStack T n) (L : List T) (v : T) (h : StackRel s (v :: L)) :
    s.isNotEmpty = true ∧ ∃ s', s.popRet = some (v, s') ∧ StackRel s' L := by
  constructor
  · obtain ⟨_, h2, h3, _⟩ := h
    rw [List.length_cons] at h2 h3
    simp only [FixedStack.isNotEmpty, decide_eq_true_eq]; omega
  · obtain ⟨s', e, r⟩ := stack_step hn s (v :: L) L .popRet (.val v) h (by simp [lifoStep])
    simp only [FixedStack.step, Option.map_eq_some_iff, Prod.mk.injEq, StackObs.val.injEq] at e
    obtain ⟨⟨a, s''⟩, e1, e2, e3⟩ := e
    simp only at e2 e3
    subst e2 e3
    exact ⟨s'', e1, r⟩

theorem pushAll_ok {D : Nat} (hn : D < 2 ^ 32) : ∀ (l : List (Nat × Nat)) (s : FixedStack (Nat × Nat) D) (L : List (Nat × Nat)), StackRel s L →
    L.length + l.length ≤ D → ∃ s', pushAll s l = some s' ∧ StackRel s' (l.reverse ++ L) := by
  intro l
  induction l with
  | nil => intro s L h _; exact ⟨s, rfl, by simpa using h⟩
  | cons v l ih =>
    intro s L h hl
    rw [List.length_cons] at hl
    obtain ⟨s1, e1, r1⟩ := stack_push hn s L v h (by omega)
    obtain ⟨s2, e2, r2⟩ := ih s1 (v :: L) r1 (by rw [List.length_cons]; omega)
    refine ⟨s2, ?_, by simpa using r2⟩
    unfold pushAll
    rw [e1, Option.bind_some, e2]

/-- The pending pairs fit in a stack of `D` entries until the end. -/
def FitsP (D : Nat) : List (KTree × KTree) → Prop
  | [] => True
  | p :: r => p.2.depth + r.length + 1 ≤ D ∧ FitsP D r

def msum (P : List (KTree × KTree)) : Nat := (P.map fun p => p.1.size * p.2.size).sum

/-- The pairs whose first cell is `i`. -/
def selD (off i : Nat) (D : List (Bool × KTree × KTree)) : List (Bool × KTree × KTree) :=
  D.filter fun x => decide (cellIdx off x.2.1.ref = i)

theorem selD_flatMap (off i : Nat) (f : KTree × KTree → List (Bool × KTree × KTree)) (P : List (KTree × KTree)) :
    selD off i (P.flatMap f) = P.flatMap fun p => selD off i (f p) := by
  unfold selD
  rw [List.filter_flatMap]

theorem selD_none (off i : Nat) (low : Bool) (M : KTree → KTree → Bool) (p : KTree × KTree) (h : i ∉ p.1.cells off) :
    selD off i (dualC low M p) = [] := by
  unfold selD
  rw [List.filter_eq_nil_iff]
  intro x hx
  simp only [decide_eq_true_eq]
  intro he
  exact h (he ▸ List.mem_map.2 ⟨x.2.1, (dualC_sub low M p x hx).1, rfl⟩)

theorem size_kids (S : KTree) : ∀ s ∈ S.kids, s.size ≤ S.size ∧ (S.isLf = false → s.size < S.size) := by
  intro s hs
  cases S with
  | leaf k => simp only [KTree.kids, List.mem_singleton] at hs; subst hs; simp [KTree.isLf]
  | node i l r =>
    have := size_pos l
    have := size_pos r
    simp only [KTree.kids, List.mem_cons, List.not_mem_nil, or_false] at hs
    rcases hs with rfl | rfl <;> simp only [KTree.size] <;> omega

theorem pairsBA_one (a : Nat) : ∀ bs : List Nat, pairsBA [a] bs = bs.map fun b => (a, b) := by
  intro bs
  induction bs with
  | nil => rfl
  | cons b bs ih =>
    unfold pairsBA at ih ⊢
    rw [List.flatMap_cons, ih]; rfl

/-- Item `i` goes down one child only. -/
theorem one_kid (off i : Nat) (S : KTree) (hnd : (S.cells off).Nodup) (hi : i ∈ S.cells off) (h : cellIdx off S.ref = i → S.isLf = true) :
    ∃ K ∈ S.kids, i ∈ K.cells off ∧ S.kids.filter (fun s => decide (i ∈ s.cells off)) = [K] := by
  cases S with
  | leaf k => exact ⟨.leaf k, by simp [KTree.kids], hi, by simp [KTree.kids, hi]⟩
  | node j l r =>
    have he : (KTree.node j l r).cells off = j :: (l.cells off ++ r.cells off) := by simp [KTree.cells, KTree.subtrees, KTree.ref, cellIdx]
    rw [he] at hnd hi
    have hji : j ≠ i := by
      intro hji
      have := h (by simpa [KTree.ref, cellIdx] using hji)
      simp [KTree.isLf] at this
    rw [List.nodup_cons, List.nodup_append] at hnd
    simp only [List.mem_cons, List.mem_append] at hi
    rcases hi with hi | hi | hi
    · exact absurd hi.symm hji
    · have hr : i ∉ r.cells off := fun hr => hnd.2.2.2 i hi i hr rfl
      exact ⟨l, by simp [KTree.kids], hi, by simp [KTree.kids, hi, hr]⟩
    · have hl : i ∉ l.cells off := fun hl => hnd.2.2.2 i hl i hi rfl
      exact ⟨r, by simp [KTree.kids], hi, by simp [KTree.kids, hi, hl]⟩

theorem flatMap_filter_keep {α β : Type} (q : α → Bool) (g : α → List β) : ∀ l : List α, (∀ a ∈ l, q a = false → g a = []) →
    l.flatMap g = (l.filter q).flatMap g := by
  intro l
  induction l with
  | nil => intro _; rfl
  | cons a l ih =>
    intro h
    rw [List.flatMap_cons, ih (fun b hb => h b (by simp [hb])), List.filter_cons]
    cases hq : q a with
    | true => simp
    | false => rw [h a (by simp) hq]; simp

section
variable {F : Type} [LinearOrder F] {t : BVH F} {T : KTree} {bx : KTree → V3 F × V3 F}

theorem withinKids_eq (i : Nat) (hW : ∀ S ∈ T.subtrees, withinNode t i (cellIdx t.nodes.length S.ref) = some (decide (i ∈ S.cells t.nodes.length))) :
    ∀ l : List KTree, (∀ s ∈ l, s ∈ T.subtrees) → withinKids t i (l.map fun s => cellIdx t.nodes.length s.ref) =
      some ((l.filter fun s => decide (i ∈ s.cells t.nodes.length)).map fun s => cellIdx t.nodes.length s.ref) := by
  intro l
  induction l with
  | nil => intro _; rfl
  | cons s l ih =>
    intro h
    rw [List.map_cons]
    unfold withinKids
    rw [hW s (h s (by simp)), ih (fun x hx => h x (by simp [hx]))]
    simp only [Option.bind_eq_bind, Option.bind_some]
    by_cases hs : i ∈ s.cells t.nodes.length
    · simp [hs]
    · simp [hs]

/-- Item `i` may compare its box with those of the cells. -/
def WithinOk (t : BVH F) (T : KTree) (i : Nat) : Prop :=
  ∀ S ∈ T.subtrees, withinNode t i (cellIdx t.nodes.length S.ref) = some (decide (i ∈ S.cells t.nodes.length))

theorem selLoop_ok (H : DTTIn t T bx) (low : Bool) (mac : Mac F) (i D : Nat) (hD : D < 2 ^ 32) (hW : WithinOk t T i) :
    ∀ (fuel : Nat) (P : List (KTree × KTree)) (s : FixedStack (Nat × Nat) D) (st : Inter), StackRel s (P.map (cidx t.nodes.length)) →
      (∀ p ∈ P, MeetOk low T p ∧ i ∈ p.1.cells t.nodes.length) → FitsP D P → msum P < fuel →
      ∃ r, selLoop low mac t i D fuel s st = some r ∧
        r.1.Perm (st.1 ++ (outOf t.nodes.length (selD t.nodes.length i (P.flatMap (dualC low (macT mac bx))))).1) ∧
        r.2.Perm (st.2 ++ (outOf t.nodes.length (selD t.nodes.length i (P.flatMap (dualC low (macT mac bx))))).2) := by
  intro fuel
  induction fuel with
  | zero => intro P s st _ _ _ h; omega
  | succ fuel ih =>
    intro P s st hs hP hfit hf
    cases P with
    | nil =>
      obtain ⟨_, h2, h3, _⟩ := hs
      unfold selLoop
      rw [if_neg (by simp only [FixedStack.isNotEmpty, decide_eq_true_eq]; simp at h3; omega)]
      exact ⟨st, rfl, by simp [selD, outOf], by simp [selD, outOf]⟩
    | cons p P =>
      rw [List.map_cons] at hs
      obtain ⟨hne, s1, hpop, hs1⟩ := stack_pop hD s _ _ hs
      obtain ⟨hmeet, hi⟩ := hP p (by simp)
      have hP' : ∀ q ∈ P, MeetOk low T q ∧ i ∈ q.1.cells t.nodes.length := fun q hq => hP q (by simp [hq])
      have hms : msum (p :: P) = p.1.size * p.2.size + msum P := by simp [msum]
      rw [hms] at hf
      have h1 := Nat.mul_pos (size_pos p.1) (size_pos p.2)
      unfold selLoop
      have hpop' : s.popRet = some ((cellIdx t.nodes.length p.1.ref, cellIdx t.nodes.length p.2.ref), s1) := hpop
      rw [if_pos hne, hpop']
      dsimp only
      rw [dttStep_eq H low mac p.1 p.2 hmeet]
      rw [List.flatMap_cons, show selD t.nodes.length i (dualC low (macT mac bx) p ++ P.flatMap (dualC low (macT mac bx))) =
        selD t.nodes.length i (dualC low (macT mac bx) p) ++ selD t.nodes.length i (P.flatMap (dualC low (macT mac bx))) by simp [selD],
        outOf_append]
      by_cases hm : mac (bx p.1) (bx p.2) = true
      · -- accepted
        simp only [hm, if_true]
        obtain ⟨r, r1, r2, r3⟩ := ih P s1 (if cellIdx t.nodes.length p.1.ref = i then
          (st.1 ++ [(cellIdx t.nodes.length p.1.ref, cellIdx t.nodes.length p.2.ref)], st.2) else st) hs1 hP' hfit.2 (by omega)
        refine ⟨r, r1, r2.trans ?_, r3.trans ?_⟩
        all_goals
          rw [dualC_eq, if_pos (show macT mac bx p.1 p.2 = true from hm)]
          by_cases hc : cellIdx t.nodes.length p.1.ref = i <;> simp [selD, outOf, hc, cidx]
      · simp only [hm, Bool.false_eq_true, if_false]
        by_cases hcl : closedP low p.1 p.2 = true
        · simp only [hcl, if_true]
          obtain ⟨r, r1, r2, r3⟩ := ih P s1 (if cellIdx t.nodes.length p.1.ref = i then
            (st.1, st.2 ++ [(cellIdx t.nodes.length p.1.ref, cellIdx t.nodes.length p.2.ref)]) else st) hs1 hP' hfit.2 (by omega)
          refine ⟨r, r1, r2.trans ?_, r3.trans ?_⟩
          all_goals
            rw [dualC_eq, if_neg (show ¬ macT mac bx p.1 p.2 = true from hm), if_pos hcl]
            by_cases hc : cellIdx t.nodes.length p.1.ref = i <;> simp [selD, outOf, hc, cidx]
        · simp only [hcl, Bool.false_eq_true, if_false]
          have hcl' : closedP low p.1 p.2 = false := by simpa using hcl
          have hnd : (p.1.cells t.nodes.length).Nodup := (cells_sublist _ T p.1 hmeet.1).nodup (whole_cells_nodup H.whole)
          have hsplit : selD t.nodes.length i (dualC low (macT mac bx) p) =
              (pairsT p.1 p.2).flatMap fun q => selD t.nodes.length i (dualC low (macT mac bx) q) := by
            rw [dualC_eq, if_neg (show ¬ macT mac bx p.1 p.2 = true from hm), if_neg hcl, selD_flatMap]
          have hwk := withinKids_eq i hW p.1.kids (fun x hx => subtrees_trans _ _ _ hmeet.1 (kids_subtrees _ _ hx))
          -- what happens when the item goes on
          have goon : (cellIdx t.nodes.length p.1.ref = i → p.1.isLf = true) → ∃ K ∈ p.1.kids,
              withinKids t i (p.1.kids.map fun x => cellIdx t.nodes.length x.ref) = some [cellIdx t.nodes.length K.ref] ∧
              ∃ s2, pushAll s1 ((p.2.kids.map fun r => cellIdx t.nodes.length r.ref).map fun b => (cellIdx t.nodes.length K.ref, b)) = some s2 ∧
              ∃ r, selLoop low mac t i D fuel s2 st = some r ∧
                r.1.Perm (st.1 ++ ((outOf t.nodes.length (selD t.nodes.length i (dualC low (macT mac bx) p))).1 ++
                  (outOf t.nodes.length (selD t.nodes.length i (P.flatMap (dualC low (macT mac bx))))).1)) ∧
                r.2.Perm (st.2 ++ ((outOf t.nodes.length (selD t.nodes.length i (dualC low (macT mac bx) p))).2 ++
                  (outOf t.nodes.length (selD t.nodes.length i (P.flatMap (dualC low (macT mac bx))))).2)) := by
            intro hlf
            obtain ⟨K, hK, hiK, hfil⟩ := one_kid t.nodes.length i p.1 hnd hi hlf
            refine ⟨K, hK, by rw [hwk, hfil]; rfl, ?_⟩
            have hl : (p.2.kids.map fun r => cellIdx t.nodes.length r.ref).map (fun b => (cellIdx t.nodes.length K.ref, b)) =
                (p.2.kids.map fun r => (K, r)).map (cidx t.nodes.length) := by
              rw [List.map_map, List.map_map]; rfl
            rw [hl]
            have hq : ∀ r ∈ p.2.kids, (K, r) ∈ pairsT p.1 p.2 := fun r hr => pairsT_mem.2 ⟨hK, hr⟩
            have hfit1 := hfit.1
            have hfit2 := hfit.2
            have hroom : (P.map (cidx t.nodes.length)).length + ((p.2.kids.map fun r => (K, r)).map (cidx t.nodes.length)).length ≤ D ∧
                FitsP D ((p.2.kids.map fun r => (K, r)).reverse ++ P) := by
              simp only [List.length_map]
              cases hR : p.2 with
              | leaf k =>
                rw [hR] at hfit1
                simp only [KTree.kids, List.length_singleton, List.map_cons, List.map_nil, List.reverse_singleton, List.singleton_append, FitsP]
                simp only [KTree.depth] at hfit1
                exact ⟨by omega, by simp only [KTree.depth]; omega, hfit2⟩
              | node j a b =>
                rw [hR] at hfit1
                simp only [KTree.kids, List.length_cons, List.length_nil, List.map_cons, List.map_nil, List.reverse_cons, List.reverse_nil,
                  List.nil_append, List.cons_append, FitsP, List.length_append]
                simp only [KTree.depth] at hfit1
                refine ⟨by omega, by omega, by omega, hfit2⟩
            obtain ⟨s2, e2, hs2⟩ := pushAll_ok hD ((p.2.kids.map fun r => (K, r)).map (cidx t.nodes.length)) s1 _ hs1 hroom.1
            refine ⟨s2, e2, ?_⟩
            rw [← List.map_reverse, ← List.map_append] at hs2
            have hsize : msum ((p.2.kids.map fun r => (K, r)).reverse ++ P) < fuel := by
              have hlt : msum ((p.2.kids.map fun r => (K, r)).reverse ++ P) < p.1.size * p.2.size + msum P := by
                have hk := size_kids p.1 K hK
                cases hR : p.2 with
                | leaf k =>
                  have hnl : p.1.isLf = false := by
                    rcases not_closed hcl' with h | h
                    · exact h
                    · rw [hR] at h; simp [KTree.isLf] at h
                  have := hk.2 hnl
                  simp [KTree.kids, msum, KTree.size]; omega
                | node j a b =>
                  have h2 : K.size * (a.size + b.size) ≤ p.1.size * (a.size + b.size) := Nat.mul_le_mul_right _ hk.1
                  have h3 := size_pos p.1
                  have h4 : p.1.size * (a.size + b.size + 1) = p.1.size * (a.size + b.size) + p.1.size := by ring
                  have h5 : K.size * (a.size + b.size) = K.size * a.size + K.size * b.size := by ring
                  simp only [KTree.kids, msum, List.map_cons, List.map_nil, List.reverse_cons, List.reverse_nil, List.nil_append,
                    List.cons_append, List.sum_cons, KTree.size]
                  omega
              omega
            obtain ⟨r, r1, r2, r3⟩ := ih _ s2 st hs2 (by
              intro q hq'
              rcases List.mem_append.1 hq' with h | h
              · rw [List.mem_reverse] at h
                obtain ⟨x, hx, rfl⟩ := List.mem_map.1 h
                exact ⟨meet_kids hmeet hcl' (hq x hx), hiK⟩
              · exact hP' q h) hroom.2 hsize
            have hflat : (selD t.nodes.length i (((p.2.kids.map fun r => (K, r)).reverse ++ P).flatMap (dualC low (macT mac bx)))).Perm
                (selD t.nodes.length i (dualC low (macT mac bx) p) ++ selD t.nodes.length i (P.flatMap (dualC low (macT mac bx)))) := by
              rw [List.flatMap_append, show ∀ A B, selD t.nodes.length i (A ++ B) = selD t.nodes.length i A ++ selD t.nodes.length i B by
                intro A B; simp [selD]]
              refine List.Perm.append_right _ ?_
              rw [hsplit, selD_flatMap]
              refine ((List.reverse_perm _).flatMap_right _).trans (List.Perm.of_eq ?_)
              have hkeep := flatMap_filter_keep (fun q : KTree × KTree => decide (i ∈ q.1.cells t.nodes.length))
                (fun q => selD t.nodes.length i (dualC low (macT mac bx) q)) (pairsT p.1 p.2) (by
                  intro q _ hq0
                  exact selD_none _ _ _ _ _ (by simpa using hq0))
              rw [hkeep]
              congr 1
              unfold pairsT
              rw [List.filter_flatMap]
              have : ∀ r, (p.1.kids.map fun x => (x, r)).filter (fun q : KTree × KTree => decide (i ∈ q.1.cells t.nodes.length)) = [(K, r)] := by
                intro r
                rw [List.filter_map]
                show (p.1.kids.filter (fun x => decide (i ∈ x.cells t.nodes.length))).map _ = _
                rw [hfil]; rfl
              simp only [this]
              induction p.2.kids with
              | nil => rfl
              | cons a l ihl => rw [List.flatMap_cons, List.map_cons, ← ihl]; rfl
            have ho := outOf_perm t.nodes.length hflat
            rw [outOf_append] at ho
            exact ⟨r, r1, r2.trans (List.Perm.append_left _ ho.1), r3.trans (List.Perm.append_left _ ho.2)⟩
          -- the item stops at its own cell
          have stops : cellIdx t.nodes.length p.1.ref = i → p.1.isLf = false → ∃ r, selLoop low mac t i D fuel s1 st = some r ∧
                r.1.Perm (st.1 ++ ((outOf t.nodes.length (selD t.nodes.length i (dualC low (macT mac bx) p))).1 ++
                  (outOf t.nodes.length (selD t.nodes.length i (P.flatMap (dualC low (macT mac bx))))).1)) ∧
                r.2.Perm (st.2 ++ ((outOf t.nodes.length (selD t.nodes.length i (dualC low (macT mac bx) p))).2 ++
                  (outOf t.nodes.length (selD t.nodes.length i (P.flatMap (dualC low (macT mac bx))))).2)) := by
            intro hc hnl
            have hnone : selD t.nodes.length i (dualC low (macT mac bx) p) = [] := by
              rw [hsplit, List.flatMap_eq_nil_iff]
              intro q hq
              apply selD_none
              obtain ⟨q1, _⟩ := pairsT_mem.1 hq
              cases hS : p.1 with
              | leaf k => rw [hS] at hnl; simp [KTree.isLf] at hnl
              | node j l r =>
                rw [hS] at q1 hnd hc
                have he : (KTree.node j l r).cells t.nodes.length = j :: (l.cells t.nodes.length ++ r.cells t.nodes.length) := by
                  simp [KTree.cells, KTree.subtrees, KTree.ref, cellIdx]
                rw [he, List.nodup_cons, List.mem_append] at hnd
                have hj : j = i := by simpa [KTree.ref, cellIdx] using hc
                subst hj
                simp only [KTree.kids, List.mem_cons, List.not_mem_nil, or_false] at q1
                rcases q1 with h | h <;> rw [h]
                · exact fun h' => hnd.1 (Or.inl h')
                · exact fun h' => hnd.1 (Or.inr h')
            obtain ⟨r, r1, r2, r3⟩ := ih P s1 st hs1 hP' hfit.2 (by omega)
            rw [hnone]
            exact ⟨r, r1, by simpa [outOf] using r2, by simpa [outOf] using r3⟩
          cases low with
          | true =>
            simp only [if_true]
            by_cases hstop : cellIdx t.nodes.length p.1.ref = i ∧
                (p.1.kids.map fun x => cellIdx t.nodes.length x.ref).head? ≠ some (cellIdx t.nodes.length p.1.ref)
            · rw [if_pos hstop]
              refine stops hstop.1 ?_
              cases hS : p.1 with
              | leaf k => rw [hS] at hstop; simp [KTree.kids] at hstop
              | node j l r => rfl
            · rw [if_neg hstop]
              have hlf : cellIdx t.nodes.length p.1.ref = i → p.1.isLf = true := by
                intro hc
                by_contra hnl
                apply hstop
                refine ⟨hc, ?_⟩
                cases hS : p.1 with
                | leaf k => rw [hS] at hnl; simp [KTree.isLf] at hnl
                | node j l r =>
                  rw [hS] at hnd
                  have he : (KTree.node j l r).cells t.nodes.length = j :: (l.cells t.nodes.length ++ r.cells t.nodes.length) := by
                    simp [KTree.cells, KTree.subtrees, KTree.ref, cellIdx]
                  rw [he, List.nodup_cons, List.mem_append] at hnd
                  simp only [KTree.kids, List.map_cons, List.head?_cons, ne_eq, Option.some.injEq]
                  intro h'
                  apply hnd.1
                  left
                  have : cellIdx t.nodes.length (KTree.node j l r).ref = j := by simp [KTree.ref, cellIdx]
                  rw [← this, ← h']
                  exact self_cells _ _
              obtain ⟨K, hK, hw, s2, hpush, hr⟩ := goon hlf
              rw [hw, Option.bind_some]
              have hba : pairsBA [cellIdx t.nodes.length K.ref] (p.2.kids.map fun r => cellIdx t.nodes.length r.ref) =
                  (p.2.kids.map fun r => cellIdx t.nodes.length r.ref).map fun b => (cellIdx t.nodes.length K.ref, b) := pairsBA_one _ _
              rw [hba, hpush]
              exact hr
          | false =>
            simp only [Bool.false_eq_true, if_false]
            rw [hwk]
            simp only
            by_cases hc : cellIdx t.nodes.length p.1.ref = i
            · rw [if_pos hc]
              exact stops hc (hmeet.2.2 rfl).1
            · rw [if_neg hc]
              obtain ⟨K, hK, hw, s2, hpush, hr⟩ := goon (fun h => absurd h hc)
              rw [hwk] at hw
              rw [Option.some.inj hw]
              have hab : pairsAB [cellIdx t.nodes.length K.ref] (p.2.kids.map fun r => cellIdx t.nodes.length r.ref) =
                  (p.2.kids.map fun r => cellIdx t.nodes.length r.ref).map fun b => (cellIdx t.nodes.length K.ref, b) := by
                simp [pairsAB]
              rw [hab, hpush]
              exact hr

theorem outOf_sel (off i : Nat) (D : List (Bool × KTree × KTree)) :
    (outOf off (selD off i D)).1 = (outOf off D).1.filter (fun ab => decide (ab.1 = i)) ∧
    (outOf off (selD off i D)).2 = (outOf off D).2.filter (fun ab => decide (ab.1 = i)) := by
  unfold outOf selD cidx
  simp only [List.filter_filter, List.filter_map]
  constructor
  · congr 1
    apply List.filter_congr
    intro x _
    simp [Function.comp, Bool.and_comm]
  · congr 1
    apply List.filter_congr
    intro x _
    simp [Function.comp, Bool.and_comm]

theorem outOf_lt (H : DTTIn t T bx) (low : Bool) (mac : Mac F) :
    (∀ ab ∈ (outOf t.nodes.length (dttOut low mac bx T)).1, ab.1 < 2 * t.nodes.length + 1 ∧ ab.2 < 2 * t.nodes.length + 1) ∧
    (∀ ab ∈ (outOf t.nodes.length (dttOut low mac bx T)).2, ab.1 < 2 * t.nodes.length + 1 ∧ ab.2 < 2 * t.nodes.length + 1) := by
  have hmem : ∀ x ∈ dttOut low mac bx T, x.2.1 ∈ T.subtrees ∧ x.2.2 ∈ T.subtrees := by
    intro x hx
    unfold dttOut at hx
    split at hx
    · simp only [List.mem_singleton] at hx; subst hx; exact ⟨self_mem_subtrees _, self_mem_subtrees _⟩
    · exact dualC_sub _ _ _ x hx
  have hlt : ∀ S ∈ T.subtrees, cellIdx t.nodes.length S.ref < 2 * t.nodes.length + 1 :=
    fun S hS => (whole_cells H.whole _).2 ⟨S, hS, rfl⟩
  constructor <;>
  · intro ab hab
    obtain ⟨x, hx, rfl⟩ := List.mem_map.1 hab
    obtain ⟨h1, h2⟩ := hmem x (List.mem_filter.1 hx).1
    exact ⟨hlt _ h1, hlt _ h2⟩

theorem selItem_ok (H : DTTIn t T bx) (low : Bool) (mac : Mac F) (D i : Nat) (hD : D < 2 ^ 32) (hdep : T.depth + 1 ≤ D)
    (hi : i < 2 * t.nodes.length + 1) (hW : WithinOk t T i) :
    ∃ r, selItem low mac t D i = some r ∧ r.1.Perm ((outOf t.nodes.length (dttOut low mac bx T)).1.filter fun ab => decide (ab.1 = i)) ∧
      r.2.Perm ((outOf t.nodes.length (dttOut low mac bx T)).2.filter fun ab => decide (ab.1 = i)) := by
  have h0 := whole_root H.whole
  unfold selItem
  rw [root_leaf H]
  by_cases hl : T.isLf = true
  · have hn : t.nodes.length = 0 := by
      obtain ⟨k, rfl⟩ := kids_leaf hl
      have := whole_size H.whole
      simp [KTree.size] at this
      exact List.length_eq_zero_iff.2 this
    have hi0 : i = 0 := by omega
    subst hi0
    rw [if_pos ⟨rfl, hl⟩]
    unfold dttOut
    rw [if_pos hl]
    refine ⟨_, rfl, ?_, ?_⟩ <;> simp [outOf, cidx, h0]
  · rw [if_neg (fun h => hl h.2)]
    obtain ⟨s, e, hs⟩ := stack_push hD (FixedStack.empty0 (Nat × Nat) D) [] (0, 0) (by
      refine ⟨by simp [FixedStack.empty0], by simp, by simp [FixedStack.empty0], ?_⟩
      intro j hj; simp at hj) (by simp; omega)
    rw [e, Option.bind_some]
    have hsz := whole_size H.whole
    obtain ⟨r, r1, r2, r3⟩ := selLoop_ok H low mac i D hD hW ((2 * t.nodes.length + 1) * (2 * t.nodes.length + 1) + 1) [(T, T)] s ([], [])
      (by simpa [cidx, h0] using hs) (by
        intro p hp
        simp only [List.mem_singleton] at hp
        subst hp
        refine ⟨meet_root (by simpa using hl) low, ?_⟩
        obtain ⟨S, hS, he⟩ := (whole_cells H.whole i).1 hi
        exact List.mem_map.2 ⟨S, hS, he⟩) ⟨by simp; omega, trivial⟩ (by simp [msum, hsz])
    refine ⟨r, r1, ?_, ?_⟩
    · rw [← (outOf_sel _ _ _).1]
      unfold dttOut
      rw [if_neg hl]
      simpa using r2
    · rw [← (outOf_sel _ _ _).2]
      unfold dttOut
      rw [if_neg hl]
      simpa using r3

theorem mapM_range_exists {β : Type} [Nonempty β] (f : Nat → Option β) (Q : Nat → β → Prop) : ∀ n, (∀ i < n, ∃ r, f i = some r ∧ Q i r) →
    ∃ rs, (List.range n).mapM f = some rs ∧ rs.length = n ∧ ∀ (i : Nat) r, rs[i]? = some r → Q i r := by
  intro n h
  choose! g hg using h
  classical
  refine ⟨(List.range n).map g, ?_, by simp, ?_⟩
  · exact mapM_range_some n f g (fun i hi => (hg i hi).1)
  · intro i r hr
    have hi : i < n := by have := (List.getElem?_eq_some_iff.1 hr).1; simpa using this
    rw [List.getElem?_map, List.getElem?_range hi] at hr
    have hr := Option.some.inj hr
    rw [← hr]
    exact (hg i hi).2

theorem dttSelect_ok (H : DTTIn t T bx) (low : Bool) (mac : Mac F) (D : Nat) (hD : D < 2 ^ 32) (hdep : T.depth + 1 ≤ D)
    (hW : ∀ i < 2 * t.nodes.length + 1, WithinOk t T i) (junk : Nat → Nat × Nat) (order : List Nat)
    (hord : order.Perm (List.range (2 * t.nodes.length + 1))) (hsz : (dttOut low mac bx T).length < 2 ^ 32) :
    ∃ r, dttSelect low mac t D junk order = some r ∧
      GroupedBy (2 * t.nodes.length + 1) (outOf t.nodes.length (dttOut low mac bx T)).1 r.m2l r.offM2l ∧
      GroupedBy (2 * t.nodes.length + 1) (outOf t.nodes.length (dttOut low mac bx T)).2 r.p2p r.offP2p := by
  obtain ⟨items, e, hlen, hQ⟩ := mapM_range_exists (selItem low mac t D)
    (fun i r => r.1.Perm ((outOf t.nodes.length (dttOut low mac bx T)).1.filter fun ab => decide (ab.1 = i)) ∧
      r.2.Perm ((outOf t.nodes.length (dttOut low mac bx T)).2.filter fun ab => decide (ab.1 = i))) (2 * t.nodes.length + 1)
    (fun i hi => selItem_ok H low mac D i hD hdep hi (hW i hi))
  have hlt := outOf_lt H low mac
  have hlen1 : (outOf t.nodes.length (dttOut low mac bx T)).1.length ≤ (dttOut low mac bx T).length := by
    unfold outOf; rw [List.length_map]; exact List.length_filter_le _ _
  have hlen2 : (outOf t.nodes.length (dttOut low mac bx T)).2.length ≤ (dttOut low mac bx T).length := by
    unfold outOf; rw [List.length_map]; exact List.length_filter_le _ _
  have main : ∀ (f : Inter → List (Nat × Nat)) (inter : List (Nat × Nat)), (∀ (i : Nat) r, items[i]? = some r →
      (f r).Perm (inter.filter fun ab => decide (ab.1 = i))) → (∀ ab ∈ inter, ab.1 < 2 * t.nodes.length + 1) → inter.length < 2 ^ 32 →
      ∃ out offs, compactRuns junk order (items.map f) = some (out, offs) ∧ GroupedBy (2 * t.nodes.length + 1) inter out offs := by
    intro f inter hf hN hlt
    have hperm : ∀ (i : Nat) r, (items.map f)[i]? = some r → r.Perm (inter.filter fun ab => decide (ab.1 = i)) := by
      intro i r hr
      rw [List.getElem?_map, Option.map_eq_some_iff] at hr
      obtain ⟨x, hx, rfl⟩ := hr
      exact hf i x hx
    have hflat : (items.map f).flatten.Perm inter := by
      refine List.Perm.trans ?_ (runsOf_perm (2 * t.nodes.length + 1) inter hN)
      apply flatten_perm
      unfold runsOf
      rw [List.forall₂_iff_get]
      refine ⟨by simp [hlen], ?_⟩
      intro i h1 h2
      have := hperm i _ (List.getElem?_eq_getElem h1)
      simpa using this
    obtain ⟨scan, c1, c2, c3⟩ := compactRuns_ok junk order (items.map f) (by rw [List.length_map, hlen]; exact hord)
      (by rw [hflat.length_eq]; exact hlt)
    refine ⟨_, scan, c1, ?_⟩
    rw [List.length_map, hlen] at c2 c3
    exact grouped_runs (2 * t.nodes.length + 1) inter (items.map f) scan (by rw [List.length_map, hlen]) c2 c3 hperm hN
  obtain ⟨o1, f1, a1, b1⟩ := main (·.1) _ (fun i r h => (hQ i r h).1) (fun ab h => (hlt.1 ab h).1) (by omega)
  obtain ⟨o2, f2, a2, b2⟩ := main (·.2) _ (fun i r h => (hQ i r h).2) (fun ab h => (hlt.2 ab h).1) (by omega)
  refine ⟨⟨o1, o2, f1, f2⟩, ?_, b1, b2⟩
  unfold dttSelect
  rw [e]
  simp only [Option.bind_eq_bind, Option.bind_some, a1, a2]; rfl

end
end Shamrock
