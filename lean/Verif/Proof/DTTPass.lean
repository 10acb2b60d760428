import Verif.Proof.DTT
/-! The multipass implementation. -/
namespace Shamrock

def pairsTab (S R : KTree) : List (KTree × KTree) := S.kids.flatMap fun s => R.kids.map fun r => (s, r)

theorem pairsTab_perm (S R : KTree) : (pairsTab S R).Perm (pairsT S R) := by
  cases S with
  | leaf a => cases R <;> exact List.Perm.refl _
  | node i a b =>
    cases R with
    | leaf c => exact List.Perm.refl _
    | node j c d => exact List.Perm.cons _ (List.Perm.swap _ _ _)

/-- Pairs of the next pass. -/
def nextP (low : Bool) (M : KTree → KTree → Bool) (p : KTree × KTree) : List (KTree × KTree) :=
  if M p.1 p.2 then [] else if closedP low p.1 p.2 then [] else if low then pairsT p.1 p.2 else pairsTab p.1 p.2

/-- Pairs settled in this pass. -/
def stopP (low : Bool) (M : KTree → KTree → Bool) (p : KTree × KTree) : List (Bool × KTree × KTree) :=
  if M p.1 p.2 then [(true, p)] else if closedP low p.1 p.2 then [(false, p)] else []

theorem nextP_mem {low : Bool} {M : KTree → KTree → Bool} {p q : KTree × KTree} (h : q ∈ nextP low M p) :
    closedP low p.1 p.2 = false ∧ q ∈ pairsT p.1 p.2 := by
  unfold nextP at h
  split at h
  · exact absurd h List.not_mem_nil
  · split at h
    · exact absurd h List.not_mem_nil
    · rename_i hc
      refine ⟨by simpa using hc, ?_⟩
      split at h
      · exact h
      · exact (pairsTab_perm _ _).mem_iff.1 h

theorem dualC_pass (low : Bool) (M : KTree → KTree → Bool) (p : KTree × KTree) :
    (dualC low M p).Perm (stopP low M p ++ (nextP low M p).flatMap (dualC low M)) := by
  rw [dualC_eq]
  unfold stopP nextP
  split
  · exact List.Perm.refl _
  · split
    · exact List.Perm.refl _
    · rw [List.nil_append]
      split
      · exact List.Perm.refl _
      · exact ((pairsTab_perm _ _).flatMap_right _).symm

theorem outOf_perm (off : Nat) {D E : List (Bool × KTree × KTree)} (h : D.Perm E) :
    (outOf off D).1.Perm (outOf off E).1 ∧ (outOf off D).2.Perm (outOf off E).2 := ⟨(h.filter _).map _, (h.filter _).map _⟩

theorem outOf_flatMap (off : Nat) (f : KTree × KTree → List (Bool × KTree × KTree)) : ∀ P : List (KTree × KTree),
    outOf off (P.flatMap f) = ((P.map fun p => (outOf off (f p)).1).flatten, (P.map fun p => (outOf off (f p)).2).flatten) := by
  intro P
  induction P with
  | nil => rfl
  | cons p P ih => rw [List.flatMap_cons, outOf_append, ih]; rfl

theorem flatten_length_le {α : Type} (c : Nat) : ∀ l : List (List α), (∀ r ∈ l, r.length ≤ c) → l.flatten.length ≤ c * l.length := by
  intro l
  induction l with
  | nil => simp
  | cons a l ih =>
    intro h
    have h1 := h a (by simp)
    have h2 := ih (fun r hr => h r (by simp [hr]))
    rw [List.flatten_cons, List.length_append, List.length_cons, Nat.mul_add, Nat.mul_one]
    omega

section
variable {F : Type} [LinearOrder F] {t : BVH F} {T : KTree} {bx : KTree → V3 F × V3 F}

theorem passItem_eq (H : DTTIn t T bx) (low : Bool) (mac : Mac F) (p : KTree × KTree) (h : MeetOk low T p) :
    passItem low mac t (cidx t.nodes.length p) =
      some ((nextP low (macT mac bx) p).map (cidx t.nodes.length), outOf t.nodes.length (stopP low (macT mac bx) p)) := by
  unfold passItem cidx
  simp only
  rw [dttStep_eq H low mac p.1 p.2 h, Option.map_some]
  unfold nextP stopP macT
  by_cases hm : mac (bx p.1) (bx p.2) = true
  · simp only [hm, if_true]; simp [outOf, cidx]
  · simp only [hm, Bool.false_eq_true, if_false]
    by_cases hc : closedP low p.1 p.2 = true
    · simp only [hc, if_true]; simp [outOf, cidx]
    · simp only [hc, Bool.false_eq_true, if_false]
      cases low with
      | true => simp only [if_true]; rw [pairsBA_eq]; rfl
      | false =>
        simp only [Bool.false_eq_true, if_false]
        congr 2
        unfold pairsAB pairsTab
        rw [List.map_flatMap, List.flatMap_map]
        apply flatMap_congr'
        intro s _
        rw [List.map_map, List.map_map]; rfl

theorem nextP_len (low : Bool) (M : KTree → KTree → Bool) (p : KTree × KTree) : (nextP low M p).length ≤ 4 := by
  have hk : ∀ S : KTree, S.kids.length ≤ 2 := by intro S; cases S <;> simp [KTree.kids]
  have h : (pairsT p.1 p.2).length ≤ 4 := by
    obtain ⟨S, R⟩ := p
    cases S <;> cases R <;> simp [pairsT, KTree.kids]
  unfold nextP
  split
  · simp
  · split
    · simp
    · split
      · exact h
      · rw [(pairsTab_perm _ _).length_eq]; exact h

theorem stopP_len (low : Bool) (M : KTree → KTree → Bool) (off : Nat) (p : KTree × KTree) :
    (outOf off (stopP low M p)).1.length ≤ 1 ∧ (outOf off (stopP low M p)).2.length ≤ 1 := by
  unfold stopP
  split
  · simp [outOf]
  · split <;> simp [outOf]

theorem passLoop_ok (H : DTTIn t T bx) (low : Bool) (mac : Mac F) (junk : Nat → Nat × Nat) (ord : Nat → Nat → Nat → List Nat)
    (hord : ∀ k c n, (ord k c n).Perm (List.range n)) : ∀ (fuel : Nat) (P : List (KTree × KTree)) (st : Inter), 1 ≤ fuel →
    (∀ p ∈ P, MeetOk low T p ∧ p.1.depth + p.2.depth + 2 ≤ fuel) → 4 * (P.flatMap (dualC low (macT mac bx))).length < 2 ^ 32 →
    ∃ r, passLoop low mac t junk ord fuel (P.map (cidx t.nodes.length)) st = some r ∧
      r.1.Perm (st.1 ++ (outOf t.nodes.length (P.flatMap (dualC low (macT mac bx)))).1) ∧
      r.2.Perm (st.2 ++ (outOf t.nodes.length (P.flatMap (dualC low (macT mac bx)))).2) := by
  intro fuel
  induction fuel with
  | zero => intro P st h; omega
  | succ fuel ih =>
    intro P st _ hP hsz
    have hlen : P.length ≤ (P.flatMap (dualC low (macT mac bx))).length := by
      clear hsz hP
      induction P with
      | nil => simp
      | cons p P ihp =>
        have := dualC_ne low (macT mac bx) p
        rw [List.flatMap_cons, List.length_append, List.length_cons]; omega
    unfold passLoop
    rw [List.length_map]
    by_cases h0 : P.length = 0
    · have : P = [] := List.length_eq_zero_iff.1 h0
      subst this
      rw [if_pos h0]
      exact ⟨st, rfl, by simp [outOf], by simp [outOf]⟩
    · rw [if_neg h0, if_neg (by omega)]
      have houts : (P.map (cidx t.nodes.length)).mapM (passItem low mac t) =
          some (P.map fun p => ((nextP low (macT mac bx) p).map (cidx t.nodes.length), outOf t.nodes.length (stopP low (macT mac bx) p))) := by
        rw [List.mapM_map, mapM_opt_map _ (fun p => ((nextP low (macT mac bx) p).map (cidx t.nodes.length), outOf t.nodes.length (stopP low (macT mac bx) p)))]
        intro p hp
        exact passItem_eq H low mac p (hP p hp).1
      rw [houts]
      simp only [Option.bind_eq_bind, Option.bind_some, List.map_map]
      have hb : ∀ (c : Nat) (f : KTree × KTree → List (Nat × Nat)), c ≤ 4 → (∀ p, (f p).length ≤ c) → (P.map f).flatten.length < 2 ^ 32 := by
        intro c f hc hf
        have h1 := flatten_length_le c (P.map f) (by
          intro r hr
          obtain ⟨p, _, rfl⟩ := List.mem_map.1 hr
          exact hf p)
        rw [List.length_map] at h1
        have : c * P.length ≤ 4 * P.length := Nat.mul_le_mul_right _ hc
        omega
      have hperm : ∀ (k c : Nat) (f : KTree × KTree → List (Nat × Nat)), (ord k c P.length).Perm (List.range (P.map f).length) := by
        intro k c f; rw [List.length_map]; exact hord k c _
      obtain ⟨s1, e1, _⟩ := compactRuns_ok junk (ord fuel 0 P.length) (P.map ((fun x => x.1) ∘ fun p => ((nextP low (macT mac bx) p).map (cidx t.nodes.length), outOf t.nodes.length (stopP low (macT mac bx) p))))
        (hperm _ _ _) (hb 4 _ (by omega) (by intro p; simp only [Function.comp, List.length_map]; exact nextP_len _ _ p))
      obtain ⟨s2, e2, _⟩ := compactRuns_ok junk (ord fuel 1 P.length) (P.map ((fun x => x.2.1) ∘ fun p => ((nextP low (macT mac bx) p).map (cidx t.nodes.length), outOf t.nodes.length (stopP low (macT mac bx) p))))
        (hperm _ _ _) (hb 1 _ (by omega) (by intro p; simp only [Function.comp]; exact (stopP_len _ _ _ p).1))
      obtain ⟨s3, e3, _⟩ := compactRuns_ok junk (ord fuel 2 P.length) (P.map ((fun x => x.2.2) ∘ fun p => ((nextP low (macT mac bx) p).map (cidx t.nodes.length), outOf t.nodes.length (stopP low (macT mac bx) p))))
        (hperm _ _ _) (hb 1 _ (by omega) (by intro p; simp only [Function.comp]; exact (stopP_len _ _ _ p).2))
      rw [e1, Option.bind_some, e2, Option.bind_some, e3, Option.bind_some]
      have hnext : (P.map ((fun x => x.1) ∘ fun p => ((nextP low (macT mac bx) p).map (cidx t.nodes.length), outOf t.nodes.length (stopP low (macT mac bx) p)))).flatten =
          (P.flatMap (nextP low (macT mac bx))).map (cidx t.nodes.length) := by
        rw [List.map_flatMap, ← List.flatMap_def]; rfl
      have hstop := outOf_flatMap t.nodes.length (stopP low (macT mac bx)) P
      have hstop1 : (P.map ((fun x => x.2.1) ∘ fun p => ((nextP low (macT mac bx) p).map (cidx t.nodes.length), outOf t.nodes.length (stopP low (macT mac bx) p)))).flatten =
          (outOf t.nodes.length (P.flatMap (stopP low (macT mac bx)))).1 := by rw [hstop]; rfl
      have hstop2 : (P.map ((fun x => x.2.2) ∘ fun p => ((nextP low (macT mac bx) p).map (cidx t.nodes.length), outOf t.nodes.length (stopP low (macT mac bx) p)))).flatten =
          (outOf t.nodes.length (P.flatMap (stopP low (macT mac bx)))).2 := by rw [hstop]; rfl
      simp only [hnext, hstop1, hstop2]
      have hpass : (P.flatMap (dualC low (macT mac bx))).Perm
          (P.flatMap (stopP low (macT mac bx)) ++ (P.flatMap (nextP low (macT mac bx))).flatMap (dualC low (macT mac bx))) := by
        refine (List.Perm.flatMap_left (g := fun p => stopP low (macT mac bx) p ++ (nextP low (macT mac bx) p).flatMap (dualC low (macT mac bx))) _
          (fun p _ => dualC_pass low (macT mac bx) p)).trans ?_
        rw [List.flatMap_assoc]
        exact (List.flatMap_append_perm P _ _).symm
      have hfuel : 1 ≤ fuel := by
        obtain ⟨p, hp⟩ := List.exists_mem_of_length_pos (Nat.pos_of_ne_zero h0)
        have := (hP p hp).2
        omega
      obtain ⟨r, r1, r2, r3⟩ := ih (P.flatMap (nextP low (macT mac bx)))
        (st.1 ++ (outOf t.nodes.length (P.flatMap (stopP low (macT mac bx)))).1, st.2 ++ (outOf t.nodes.length (P.flatMap (stopP low (macT mac bx)))).2)
        hfuel (by
          intro q hq
          obtain ⟨p, hp, hqp⟩ := List.mem_flatMap.1 hq
          obtain ⟨c1, c2⟩ := nextP_mem hqp
          have := pairsT_depth c1 c2
          have := (hP p hp).2
          exact ⟨meet_kids (hP p hp).1 c1 c2, by omega⟩) (by
          have := hpass.length_eq
          rw [List.length_append] at this
          omega)
      refine ⟨r, r1, ?_, ?_⟩
      · refine r2.trans ?_
        rw [List.append_assoc]
        refine List.Perm.append_left _ ?_
        refine List.Perm.trans (List.Perm.of_eq ?_) (outOf_perm t.nodes.length hpass).1.symm
        rw [outOf_append]
      · refine r3.trans ?_
        rw [List.append_assoc]
        refine List.Perm.append_left _ ?_
        refine List.Perm.trans (List.Perm.of_eq ?_) (outOf_perm t.nodes.length hpass).2.symm
        rw [outOf_append]

theorem dttMultipass_ok (H : DTTIn t T bx) (low : Bool) (mac : Mac F) (junk : Nat → Nat × Nat) (ord : Nat → Nat → Nat → List Nat)
    (hord : ∀ k c n, (ord k c n).Perm (List.range n)) (hsz : 4 * (dttOut low mac bx T).length < 2 ^ 32) :
    ∃ r, dttMultipass low mac t junk ord = some r ∧ r.1.Perm (outOf t.nodes.length (dttOut low mac bx T)).1 ∧
      r.2.Perm (outOf t.nodes.length (dttOut low mac bx T)).2 := by
  unfold dttMultipass
  unfold dttOut at *
  rw [root_leaf H]
  have h0 := whole_root H.whole
  by_cases hl : T.isLf = true
  · rw [if_pos hl, if_pos hl]
    refine ⟨_, rfl, ?_, ?_⟩ <;> simp [outOf, cidx, h0]
  · rw [if_neg hl] at hsz ⊢
    rw [if_neg hl]
    have hd := whole_depth H.whole
    obtain ⟨r, r1, r2, r3⟩ := passLoop_ok H low mac junk ord hord (2 * t.nodes.length + 2) [(T, T)] ([], []) (by omega) (by
      intro p hp
      simp only [List.mem_singleton] at hp
      subst hp
      exact ⟨meet_root (by simpa using hl) low, by simp only; omega⟩) (by simpa using hsz)
    refine ⟨r, ?_, by simpa using r2, by simpa using r3⟩
    rw [← r1]
    simp [cidx, h0]

end
end Shamrock
