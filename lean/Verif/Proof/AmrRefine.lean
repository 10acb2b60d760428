import Verif.Model.Amr
import Verif.Proof.Kernel
import Mathlib.Data.List.Nodup
/-! The refinement kernel: what it leaves in the blocks, for every schedule. -/
namespace Shamrock.Amr

/-- A step that rewrites one entry of the buffer, as a function of the private state. -/
def updStep {L α : Type} (i : Nat) (f : L → α → α) : KStep L α := fun l m => (m[i]?).map fun o => (l, m.set i (f l o))

theorem updStep_local {L α : Type} (S : Nat → Prop) (i : Nat) (hi : S i) (f : L → α → α) : LocalStep S (updStep i f) := by
  constructor
  · intro l m l' m' h
    unfold updStep at h
    cases hm : m[i]? with
    | none => rw [hm] at h; cases h
    | some o =>
      rw [hm, Option.map_some, Option.some.injEq, Prod.mk.injEq] at h
      rw [← h.2]
      refine ⟨List.length_set, fun j hj => ?_⟩
      rw [List.getElem?_set_ne (by rintro rfl; exact hj hi)]
  · intro l m m2 l' m' hl ha h
    unfold updStep at h ⊢
    rw [← ha i hi]
    cases hm : m[i]? with
    | none => rw [hm] at h; cases h
    | some o =>
      rw [hm, Option.map_some, Option.some.injEq, Prod.mk.injEq] at h
      refine ⟨m2.set i (f l o), by rw [Option.map_some, h.1], fun j hj => ?_⟩
      rw [← h.2]
      by_cases hij : i = j
      · subst hij
        have h1 := (List.getElem?_eq_some_iff.1 hm).1
        rw [List.getElem?_set_self h1, List.getElem?_set_self (by omega)]
      · rw [List.getElem?_set_ne hij, List.getElem?_set_ne hij]; exact ha j hj

theorem readStep_local {L α : Type} (S : Nat → Prop) (i : Nat) (hi : S i) (f : L → α → L) :
    LocalStep S (fun l m => (m[i]?).map fun o => (f l o, m) : KStep L α) := by
  constructor
  · intro l m l' m' h
    cases hm : m[i]? with
    | none => rw [hm] at h; cases h
    | some o =>
      rw [hm, Option.map_some, Option.some.injEq, Prod.mk.injEq] at h
      rw [← h.2]; exact ⟨rfl, fun _ _ => rfl⟩
  · intro l m m2 l' m' hl ha h
    rw [← ha i hi]
    cases hm : m[i]? with
    | none => rw [hm] at h; cases h
    | some o =>
      rw [hm, Option.map_some, Option.some.injEq, Prod.mk.injEq] at h
      exact ⟨m2, by rw [Option.map_some, h.1], fun j hj => by rw [← h.2]; exact ha j hj⟩

/-- The updates that concern entry `i`, applied in order. -/
def applyAt {α : Type} (us : List (Nat × (α → α))) (i : Nat) (o : α) : α := us.foldl (fun o u => if u.1 = i then u.2 o else o) o

theorem itemRun_upds {L α : Type} : ∀ (us : List (Nat × (L → α → α))) (l : L) (m : List α), (∀ u ∈ us, u.1 < m.length) →
    ∃ m', itemRun (us.map fun u => updStep u.1 u.2) l m = some (l, m') ∧ m'.length = m.length ∧
      ∀ i : Nat, m'[i]? = (m[i]?).map (applyAt (us.map fun u => (u.1, u.2 l)) i) := by
  intro us
  induction us with
  | nil => intro l m _; exact ⟨m, rfl, rfl, fun i => by cases h : m[i]? <;> rfl⟩
  | cons u us ih =>
    intro l m h
    have hu := h u List.mem_cons_self
    obtain ⟨m', h1, h2, h3⟩ := ih l (m.set u.1 (u.2 l m[u.1])) (fun v hv => by rw [List.length_set]; exact h v (List.mem_cons_of_mem _ hv))
    rw [List.length_set] at h2
    refine ⟨m', ?_, h2, fun i => ?_⟩
    · rw [List.map_cons, itemRun]
      unfold updStep at h1 ⊢
      rw [List.getElem?_eq_getElem hu]
      exact h1
    · rw [h3 i]
      by_cases hi : u.1 = i
      · subst hi
        rw [List.getElem?_set_self hu, List.getElem?_eq_getElem hu, Option.map_some, Option.map_some]
        simp [applyAt]
      · rw [List.getElem?_set_ne hi]
        congr 1; funext o; unfold applyAt; rw [List.map_cons, List.foldl_cons, if_neg hi]

theorem itemRun_cons {L α : Type} (s : KStep L α) (r : List (KStep L α)) (l l' : L) (m m' : List α) (h : s l m = some (l', m')) :
    itemRun (s :: r) l m = itemRun r l' m' := by
  rw [itemRun, h]; rfl

theorem itemRun_append {L α : Type} : ∀ (p q : List (KStep L α)) (l : L) (m : List α),
    itemRun (p ++ q) l m = (itemRun p l m).bind fun r => itemRun q r.1 r.2 := by
  intro p
  induction p with
  | nil => intro q l m; rfl
  | cons s p ih =>
    intro q l m
    rw [List.cons_append, itemRun, itemRun]
    cases s l m with
    | none => rfl
    | some r => simp only [Option.bind_eq_bind, Option.bind_some]; exact ih q _ _

theorem applyAt_append {α : Type} (us vs : List (Nat × (α → α))) (i : Nat) (o : α) : applyAt (us ++ vs) i o = applyAt vs i (applyAt us i o) := by
  unfold applyAt; rw [List.foldl_append]

/-- Groups of updates with different targets: only one group concerns an entry. -/
theorem applyAt_groups {α : Type} (ids : Nat → Nat) (g : Nat → List (α → α)) (p : Nat) : ∀ n, p < n → (∀ a < n, ids a = ids p → a = p) → ∀ o : α,
    applyAt ((List.range n).flatMap fun a => (g a).map fun f => (ids a, f)) (ids p) o = (g p).foldl (fun o f => f o) o := by
  have hout : ∀ (fs : List (α → α)) (j : Nat) (o : α), j ≠ ids p → applyAt (fs.map fun f => (j, f)) (ids p) o = o := by
    intro fs j o hj
    induction fs generalizing o with
    | nil => rfl
    | cons f fs ih => rw [List.map_cons]; unfold applyAt at *; rw [List.foldl_cons, if_neg hj]; exact ih o
  have hin : ∀ (fs : List (α → α)) (o : α), applyAt (fs.map fun f => (ids p, f)) (ids p) o = fs.foldl (fun o f => f o) o := by
    intro fs o
    induction fs generalizing o with
    | nil => rfl
    | cons f fs ih => rw [List.map_cons]; unfold applyAt at *; rw [List.foldl_cons, if_pos rfl]; exact ih _
  have hnone : ∀ n, (∀ a < n, ids a ≠ ids p) → ∀ o : α, applyAt ((List.range n).flatMap fun a => (g a).map fun f => (ids a, f)) (ids p) o = o := by
    intro n
    induction n with
    | zero => intro _ o; rfl
    | succ n ih =>
      intro h o
      rw [List.range_succ, List.flatMap_append, applyAt_append, ih (fun a ha => h a (by omega))]
      simp only [List.flatMap_cons, List.flatMap_nil, List.append_nil]
      exact hout _ _ _ (h n (by omega))
  intro n
  induction n with
  | zero => intro h; omega
  | succ n ih =>
    intro hp hinj o
    rw [List.range_succ, List.flatMap_append, applyAt_append]
    simp only [List.flatMap_cons, List.flatMap_nil, List.append_nil]
    rcases Nat.lt_or_ge p n with hlt | hge
    · rw [ih hlt (fun a ha => hinj a (by omega)), hout _ _ _ (fun e => by have := hinj n (by omega) e; omega)]
    · have : p = n := by omega
      subst this
      rw [hnone p (fun a ha e => by have := hinj a (by omega) e; omega), hin]

theorem getIndex_coord (i : Nat) (hi : i < 8) : getIndex (coordX i).1 (coordX i).2.1 (coordX i).2.2 = i := by
  unfold getIndex coordX; dsimp only; omega

/-- Sub-cell `s` of cell `l` is cell `s` of child `l`. -/
theorem gidWrite_eq (ids : Nat → Nat) (l s : Nat) (hl : l < 8) (hs : s < 8) :
    gidWrite ids ((coordX l).1 * 2 + (coordX s).1) ((coordX l).2.1 * 2 + (coordX s).2.1) ((coordX l).2.2 * 2 + (coordX s).2.2) = ids l * 8 + s := by
  unfold gidWrite coordX
  dsimp only
  rw [show (l % 2 * 2 + s % 2) / 2 = l % 2 by omega, show (l / 2 % 2 * 2 + s / 2 % 2) / 2 = l / 2 % 2 by omega,
    show (l / 2 / 2 * 2 + s / 2 / 2) / 2 = l / 2 / 2 by omega, show (l % 2 * 2 + s % 2) % 2 = s % 2 by omega,
    show (l / 2 % 2 * 2 + s / 2 % 2) % 2 = s / 2 % 2 by omega, show (l / 2 / 2 * 2 + s / 2 / 2) % 2 = s / 2 / 2 by omega]
  have h1 := getIndex_coord l hl
  have h2 := getIndex_coord s hs
  unfold coordX at h1 h2
  dsimp only at h1 h2
  rw [h1, h2]

/-- Child `p` of block number `i`. -/
def child (I : Interp) (b : Box) (i p : Nat) : Blk := ⟨splitX b p, fun k => refinedState I i (i * 8 + p) k⟩

/-- The updates of one item. -/
def refUpds (I : Interp) (ids : Nat → Nat) (idx : Nat) : List (Nat × (BoxLoc → Blk → Blk)) :=
  ((List.range 8).map fun pid => (ids pid, fun (b : BoxLoc) (o : Blk) => { o with box := splitX b pid })) ++
  (List.range 8).flatMap fun l => (List.range 8).map fun s =>
    (ids l, fun (_ : BoxLoc) (o : Blk) => { o with cell := fun k => if k.val = s then refinedState I idx (idx * 8 + l) s else o.cell k })

theorem writeCell_upd {L : Type} (j s : Nat) (hs : s < 8) (v : Cons) :
    (writeCell (j * 8 + s) v : KStep L Blk) = updStep j fun _ o => { o with cell := fun k => if k.val = s then v else o.cell k } := by
  funext l m
  unfold writeCell updStep
  rw [show (j * 8 + s) / 8 = j by omega, show (j * 8 + s) % 8 = s by omega]

theorem refSteps_eq (I : Interp) (ids : Nat → Nat) (idx : Nat) (R : List Nat) (hR : ∀ x ∈ R, x < 8) :
    R.map (fun pid => writeBox (ids pid) pid) ++ (R.flatMap fun l => R.map fun s =>
        writeCell (gidWrite ids ((coordX l).1 * 2 + (coordX s).1) ((coordX l).2.1 * 2 + (coordX s).2.1)
          ((coordX l).2.2 * 2 + (coordX s).2.2)) (refinedState I idx (idx * 8 + l) s)) =
    ((R.map fun pid => (ids pid, fun (b : BoxLoc) (o : Blk) => ({ o with box := splitX b pid } : Blk))) ++ R.flatMap fun l => R.map fun s =>
      (ids l, fun (_ : BoxLoc) (o : Blk) => ({ o with cell := fun k => if k.val = s then refinedState I idx (idx * 8 + l) s else o.cell k } : Blk))).map
      fun u => updStep u.1 u.2 := by
  rw [List.map_append, List.map_map, List.map_flatMap]
  congr 1
  apply List.flatMap_congr
  intro l hl
  rw [List.map_map]
  apply List.map_congr_left
  intro s hs
  rw [gidWrite_eq _ l s (hR l hl) (hR s hs), writeCell_upd _ _ (hR s hs)]
  rfl

theorem refineItem_eq (I : Interp) (old : Nat) (todo : List Nat) (tid idx : Nat) (h : todo[tid]? = some idx) :
    refineItem I old todo tid = readBox idx :: (refUpds I (newIds old tid idx) idx).map fun u => updStep u.1 u.2 := by
  have := refSteps_eq I (newIds old tid idx) idx (List.range 8) (fun x hx => List.mem_range.1 hx)
  unfold refineItem refUpds
  rw [h]
  generalize List.range 8 = R at *
  dsimp only
  rw [← this, List.append_assoc]
  rfl

/-- Filling the cells one after the other. -/
theorem fill_cells (v : Nat → Cons) (o : Blk) : ∀ n, ((List.range n).map fun s => fun (o : Blk) => { o with cell := fun k => if k.val = s then v s else o.cell k }).foldl
    (fun o f => f o) o = ⟨o.box, fun k => if k.val < n then v k else o.cell k⟩ := by
  intro n
  induction n with
  | zero => rfl
  | succ n ih =>
    rw [List.range_succ, List.map_append, List.foldl_append, ih]
    simp only [List.map_cons, List.map_nil, List.foldl_cons, List.foldl_nil, Blk.mk.injEq, true_and]
    funext k
    by_cases h1 : k.val = n
    · rw [if_pos h1, if_pos (by omega), h1]
    · rw [if_neg h1]
      by_cases h2 : k.val < n
      · rw [if_pos h2, if_pos (by omega)]
      · rw [if_neg h2, if_neg (by omega)]

theorem flatMap_single' {α β : Type} (l : List α) (f : α → β) : l.flatMap (fun a => [f a]) = l.map f := by
  induction l with
  | nil => rfl
  | cons a l ih => rw [List.flatMap_cons, ih]; rfl

theorem applyAt_boxes (ids : Nat → Nat) (b : Box) (n p : Nat) (hp : p < n) (hinj : ∀ a < n, ids a = ids p → a = p) (o : Blk) :
    applyAt ((List.range n).map fun pid => (ids pid, fun (o : Blk) => ({ o with box := splitX b pid } : Blk))) (ids p) o = ⟨splitX b p, o.cell⟩ := by
  have e1 := applyAt_groups ids (fun pid => [fun (o : Blk) => ({ o with box := splitX b pid } : Blk)]) p n hp hinj o
  rw [← flatMap_single']
  exact e1

theorem applyAt_cells (v : Nat → Nat → Cons) (ids : Nat → Nat) (n k p : Nat) (hp : p < n) (hinj : ∀ a < n, ids a = ids p → a = p) (o : Blk) :
    applyAt ((List.range n).flatMap fun l => (List.range k).map fun s =>
      (ids l, fun (o : Blk) => ({ o with cell := fun k => if k.val = s then v l s else o.cell k } : Blk))) (ids p) o =
      ⟨o.box, fun j => if j.val < k then v p j else o.cell j⟩ := by
  have e2 := applyAt_groups ids (fun l => (List.range k).map fun s => fun (o : Blk) =>
    ({ o with cell := fun k => if k.val = s then v l s else o.cell k } : Blk)) p n hp hinj o
  rw [fill_cells] at e2
  simp only [List.map_map, Function.comp_def] at e2
  exact e2

theorem refUpds_at (I : Interp) (ids : Nat → Nat) (idx : Nat) (b : Box) (p : Nat) (hp : p < 8) (hinj : ∀ a < 8, ids a = ids p → a = p) (o : Blk) :
    applyAt ((refUpds I ids idx).map fun u => (u.1, u.2 b)) (ids p) o = child I b idx p := by
  have e1 := applyAt_boxes ids b 8 p hp hinj o
  have e2 := applyAt_cells (fun l s => refinedState I idx (idx * 8 + l) s) ids 8 8 p hp hinj ⟨splitX b p, o.cell⟩
  unfold refUpds
  generalize List.range 8 = R at *
  rw [List.map_append, applyAt_append]
  simp only [List.map_map, List.map_flatMap, Function.comp_def] at e1 e2 ⊢
  rw [e1, e2]
  unfold child
  rw [Blk.mk.injEq]
  refine ⟨rfl, ?_⟩
  funext k
  rw [if_pos k.isLt]

theorem refUpds_mem (I : Interp) (ids : Nat → Nat) (idx : Nat) (u : Nat × (BoxLoc → Blk → Blk)) (hu : u ∈ refUpds I ids idx) : ∃ p < 8, u.1 = ids p := by
  unfold refUpds at hu
  have hR : ∀ x ∈ List.range 8, x < 8 := fun x hx => List.mem_range.1 hx
  generalize List.range 8 = R at *
  rw [List.mem_append] at hu
  rcases hu with hu | hu
  · obtain ⟨p, hp, e⟩ := List.mem_map.1 hu
    exact ⟨p, hR p hp, by rw [← e]⟩
  · obtain ⟨p, hp, hu⟩ := List.mem_flatMap.1 hu
    obtain ⟨s, -, e⟩ := List.mem_map.1 hu
    exact ⟨p, hR p hp, by rw [← e]⟩

attribute [local irreducible] refUpds child applyAt

/-- One item of the refinement kernel running alone. -/
theorem refineItem_run (I : Interp) (old : Nat) (todo : List Nat) (tid idx : Nat) (h : todo[tid]? = some idx) (m : List Blk) (o : Blk) (ho : m[idx]? = some o)
    (hidx : idx < old) (hlen : old + tid * 7 + 7 ≤ m.length) :
    ∃ m', itemRun (refineItem I old todo tid) box0 m = some (o.box, m') ∧ ∀ p < 8, m'[newIds old tid idx p]? = some (child I o.box idx p) := by
  have hids : ∀ p < 8, newIds old tid idx p < m.length := by
    intro p hp
    unfold newIds
    split <;> omega
  rw [refineItem_eq I old todo tid idx h]
  have hmem := refUpds_mem I (newIds old tid idx) idx
  have hat := refUpds_at I (newIds old tid idx) idx o.box
  generalize refUpds I (newIds old tid idx) idx = us at *
  obtain ⟨m', h1, h2, h3⟩ := itemRun_upds us o.box m (fun u hu => by
    obtain ⟨p, hp, e⟩ := hmem u hu
    rw [e]; exact hids p hp)
  refine ⟨m', ?_, fun p hp => ?_⟩
  · have : readBox idx box0 m = some (o.box, m) := by unfold readBox; rw [ho, Option.map_some]
    rw [itemRun_cons _ _ _ _ _ _ this]
    exact h1
  · have hlt := hids p hp
    rw [h3, List.getElem?_eq_getElem hlt, Option.map_some, hat p hp (fun a ha e => by
      unfold newIds at e
      by_cases h1 : a = 0 <;> by_cases h2 : p = 0
      · omega
      · rw [if_pos h1, if_neg h2] at e; omega
      · rw [if_neg h1, if_pos h2] at e; omega
      · rw [if_neg h1, if_neg h2] at e; omega)]

/-- The entries an item of the refinement kernel touches. -/
def refFoot (old : Nat) (todo : List Nat) (t i : Nat) : Prop := ∃ idx, todo[t]? = some idx ∧ ∃ p < 8, i = newIds old t idx p

theorem flagged_mem (fl : List Nat) (i : Nat) : i ∈ flagged fl ↔ i < fl.length ∧ fl[i]? ≠ some 0 := by
  unfold flagged
  rw [List.mem_filter, List.mem_range, decide_eq_true_eq]

theorem flagged_nodup (fl : List Nat) : (flagged fl).Nodup := List.nodup_range.filter _

/-- The refinement of a patch, whatever the schedule: block `i` becomes its child 0 if flagged and is unchanged otherwise, the other seven children
are appended. -/
theorem refineGrid_ok (I : Interp) (junk : Nat → Blk) (sched : List Nat) (ref : List Nat) (bs : List Blk) (hl : ref.length = bs.length) (B : Nat → Blk)
    (hB : ∀ (i : Nat), i < bs.length → bs[i]? = some (B i)) :
    refineGrid I junk sched ref bs = some (((List.range bs.length).map fun i => if ref[i]? ≠ some 0 then child I (B i).box i 0 else B i) ++
      (flagged ref).flatMap fun i => (List.range 7).map fun p => child I (B i).box i (p + 1)) := by
  unfold refineGrid
  dsimp only
  have hmem := flagged_mem ref
  have hnd := flagged_nodup ref
  generalize flagged ref = todo at *
  have hbs : bs = (List.range bs.length).map B := by
    apply List.ext_getElem?
    intro i
    rcases Nat.lt_or_ge i bs.length with h | h
    · rw [hB i h, List.getElem?_map, List.getElem?_range h, Option.map_some]
    · rw [List.getElem?_eq_none h, List.getElem?_eq_none (by simpa using h)]
  by_cases h0 : 0 < todo.length
  · rw [if_pos h0]
    generalize hm0 : bs ++ (List.range (todo.length * 7)).map junk = m0
    have hlen : m0.length = bs.length + todo.length * 7 := by rw [← hm0]; simp
    have hget : ∀ (i : Nat), i < bs.length → m0[i]? = some (B i) := by
      intro i hi
      rw [← hm0, List.getElem?_append_left hi, hB i hi]
    have htodo : ∀ (t idx : Nat), todo[t]? = some idx → idx < bs.length ∧ ref[idx]? ≠ some 0 := by
      intro t idx h
      have := (hmem idx).1 (List.mem_of_getElem? h)
      exact ⟨by omega, this.2⟩
    have hrun : ∀ (t : Nat), t < todo.length → ∃ m', (∃ l', itemRun (refineItem I bs.length todo t) box0 m0 = some (l', m')) ∧ ∀ (idx : Nat), todo[t]? = some idx → ∀ p < 8,
        m'[newIds bs.length t idx p]? = some (child I (B idx).box idx p) := by
      intro t ht
      have h1 := List.getElem?_eq_getElem ht
      obtain ⟨m', a, b⟩ := refineItem_run I bs.length todo t _ h1 m0 _ (hget _ (htodo t _ h1).1) (htodo t _ h1).1 (by rw [hlen]; omega)
      refine ⟨m', ⟨_, a⟩, fun idx hidx => ?_⟩
      rw [h1] at hidx
      rw [← Option.some.inj hidx]
      exact b
    choose! res hres hval using hrun
    obtain ⟨out, o1, o2, o3, o4⟩ := kLaunch_disjoint todo.length (refineItem I bs.length todo) box0 (refFoot bs.length todo) (by
      rintro t ht t' ht' hne i ⟨idx, a1, p, hp, rfl⟩ ⟨idx', b1, p', hp', e⟩
      have hi := (htodo t _ a1).1
      have hi' := (htodo t' _ b1).1
      unfold newIds at e
      split at e <;> split at e
      · subst e
        apply hne
        have h1 := (List.getElem?_eq_some_iff.1 a1)
        have h2 := (List.getElem?_eq_some_iff.1 b1)
        exact (List.Nodup.getElem_inj_iff hnd (hi := h1.1) (hj := h2.1)).1 (h1.2.trans h2.2.symm)
      · omega
      · omega
      · omega) (by
      intro t ht s hs
      have h1 := List.getElem?_eq_getElem ht
      rw [refineItem_eq I bs.length todo t _ h1] at hs
      rcases List.mem_cons.1 hs with rfl | hs
      · exact readStep_local (refFoot bs.length todo t) _ ⟨_, h1, 0, by omega, rfl⟩ (fun (_ : Box) (o : Blk) => o.box)
      · obtain ⟨u, hu, rfl⟩ := List.mem_map.1 hs
        refine updStep_local _ _ ?_ _
        obtain ⟨p, hp, e⟩ := refUpds_mem I _ _ u hu
        exact ⟨_, h1, p, hp, e⟩) m0 res hres sched
    rw [o1]
    congr 1
    have hch : ∀ (t : Nat), t < todo.length → ∀ (idx : Nat), todo[t]? = some idx → ∀ p < 8, out[newIds bs.length t idx p]? = some (child I (B idx).box idx p) := by
      intro t ht idx h p hp
      rw [o3 t ht _ ⟨idx, h, p, hp, rfl⟩]
      exact hval t ht idx h p hp
    have hfirst : out.take bs.length = (List.range bs.length).map fun i => if ref[i]? ≠ some 0 then child I (B i).box i 0 else B i := by
      apply List.ext_getElem?
      intro i
      rcases Nat.lt_or_ge i bs.length with h | h
      · rw [List.getElem?_take_of_lt h, List.getElem?_map, List.getElem?_range h, Option.map_some]
        by_cases hr : ref[i]? ≠ some 0
        · rw [if_pos hr]
          obtain ⟨t, ht⟩ := List.getElem?_of_mem ((hmem i).2 ⟨by omega, hr⟩)
          exact hch t (List.getElem?_eq_some_iff.1 ht).1 i ht 0 (by omega)
        · rw [if_neg hr, o4 i ?_, hget i h]
          rintro t ht ⟨idx, h1, p, hp, e⟩
          unfold newIds at e
          split at e
          · subst e; exact hr (htodo t _ h1).2
          · omega
      · rw [List.getElem?_eq_none (by rw [List.length_take]; omega), List.getElem?_eq_none (by simpa using h)]
    have hlast : out.drop bs.length = todo.flatMap fun i => (List.range 7).map fun p => child I (B i).box i (p + 1) := by
      have hgen : ∀ n, n ≤ todo.length → (out.drop bs.length).take (n * 7) = (todo.take n).flatMap fun i => (List.range 7).map fun p => child I (B i).box i (p + 1) := by
        intro n
        induction n with
        | zero => intro _; rw [Nat.zero_mul, List.take_zero, List.take_zero]; rfl
        | succ n ih =>
          intro hn
          have hn' : n < todo.length := by omega
          rw [Nat.succ_mul, List.take_add, ih (by omega), List.take_add_one (l := todo), List.getElem?_eq_getElem hn', Option.toList_some, List.flatMap_append]
          congr 1
          rw [List.flatMap_cons, List.flatMap_nil, List.append_nil, List.drop_drop]
          apply List.ext_getElem?
          intro j
          rcases Nat.lt_or_ge j 7 with hj | hj
          · rw [List.getElem?_take_of_lt hj, List.getElem?_drop, List.getElem?_map, List.getElem?_range hj, Option.map_some]
            have := hch n hn' _ (List.getElem?_eq_getElem hn') (j + 1) (by omega)
            rw [← this]
            unfold newIds
            rw [if_neg (by omega)]
            congr 1
          · rw [List.getElem?_eq_none (by rw [List.length_take]; omega), List.getElem?_eq_none (by simpa using hj)]
      have := hgen todo.length (le_refl _)
      rw [List.take_of_length_le (le_refl todo.length), List.take_of_length_le (by rw [List.length_drop]; omega)] at this
      exact this
    rw [← hfirst, ← hlast, List.take_append_drop]
  · rw [if_neg h0]
    have hnil : todo = [] := List.eq_nil_of_length_eq_zero (by omega)
    subst hnil
    rw [List.flatMap_nil, List.append_nil]
    congr 1
    conv_lhs => rw [hbs]
    apply List.map_congr_left
    intro i hi
    rw [List.mem_range] at hi
    rw [if_neg]
    intro hr
    exact absurd ((hmem i).2 ⟨by omega, hr⟩) List.not_mem_nil

end Shamrock.Amr
