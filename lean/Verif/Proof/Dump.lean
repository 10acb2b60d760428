import Verif.Proof.DumpFile
import Verif.Proof.DumpJson
import Verif.Proof.Sched
import Verif.Props.Collective
/-! # C51: writing and loading a dump -/
namespace Shamrock

attribute [local irreducible] u64max maxMsg

theorem dumpItems_spec {α : Type} (ser : PLayer α → Res (List Byte)) : ∀ (d : RankData α) (is : List (Nat × List Byte)), dumpItems ser d = .ok is →
    List.Forall₂ (fun kv i => i.1 = kv.1 ∧ ser kv.2 = .ok i.2) d is := by
  intro d
  induction d with
  | nil => intro is h; rw [dumpItems, Res.ok.injEq] at h; rw [← h]; exact List.Forall₂.nil
  | cons kv d ih =>
    obtain ⟨pid, l⟩ := kv
    intro is h
    rw [dumpItems] at h
    cases hs : ser l with
    | ok b =>
      rw [hs] at h
      cases hr : dumpItems ser d with
      | ok is' =>
        rw [hr] at h
        simp only [Res.bind, Res.ok.injEq] at h
        rw [← h]
        exact List.Forall₂.cons ⟨rfl, hs⟩ (ih is' hr)
      | throws => rw [hr] at h; cases h
      | ub => rw [hr] at h; cases h
    | throws => rw [hs] at h; cases h
    | ub => rw [hs] at h; cases h

theorem dumpItems_ok {α : Type} (ser : PLayer α → Res (List Byte)) : ∀ (d : RankData α), (∀ kv ∈ d, ∃ b, ser kv.2 = .ok b) → ∃ is, dumpItems ser d = .ok is := by
  intro d
  induction d with
  | nil => intro _; exact ⟨[], rfl⟩
  | cons kv d ih =>
    obtain ⟨pid, l⟩ := kv
    intro h
    obtain ⟨b, hb⟩ := h (pid, l) List.mem_cons_self
    obtain ⟨is, his⟩ := ih (fun q hq => h q (List.mem_cons_of_mem _ hq))
    have hb : ser l = .ok b := hb
    exact ⟨(pid, b) :: is, by rw [dumpItems, hb, his]; rfl⟩

theorem dumpAll_spec {α : Type} (ser : PLayer α → Res (List Byte)) (data : Nat → RankData α) : ∀ (W : Nat) (items : List (List (Nat × List Byte))), dumpAll ser data W = .ok items →
    List.Forall₂ (fun r is => dumpItems ser (data r) = .ok is) (List.range W) items := by
  intro W
  induction W with
  | zero => intro is h; rw [dumpAll, Res.ok.injEq] at h; rw [← h]; exact List.Forall₂.nil
  | succ n ih =>
    intro items h
    rw [dumpAll] at h
    cases hs : dumpAll ser data n with
    | ok r =>
      rw [hs] at h
      cases hr : dumpItems ser (data n) with
      | ok is' =>
        rw [hr] at h
        simp only [Res.bind, Res.ok.injEq] at h
        rw [← h, List.range_succ]
        exact List.rel_append (ih r hs) (List.Forall₂.cons hr List.Forall₂.nil)
      | throws => rw [hr] at h; cases h
      | ub => rw [hr] at h; cases h
    | throws => rw [hs] at h; cases h
    | ub => rw [hs] at h; cases h

theorem dumpAll_ok {α : Type} (ser : PLayer α → Res (List Byte)) (data : Nat → RankData α) : ∀ (W : Nat), (∀ r < W, ∃ is, dumpItems ser (data r) = .ok is) →
    ∃ items, dumpAll ser data W = .ok items := by
  intro W
  induction W with
  | zero => intro _; exact ⟨[], rfl⟩
  | succ n ih =>
    intro h
    obtain ⟨items, hi⟩ := ih (fun r hr => h r (by omega))
    obtain ⟨is, hs⟩ := h n (by omega)
    exact ⟨items ++ [is], by rw [dumpAll, hi, hs]; rfl⟩

/-- The items of the dump are the serialized layers of all ranks. -/
theorem dump_items {α : Type} {ser : PLayer α → Res (List Byte)} {data : Nat → RankData α} {W : Nat} {items : List (List (Nat × List Byte))} (h : dumpAll ser data W = .ok items) :
    List.Forall₂ (fun kv i => i.1 = kv.1 ∧ ser kv.2 = .ok i.2) ((List.range W).flatMap data) items.flatten := by
  have := dumpAll_spec ser data W items h
  clear h
  rw [List.flatMap_def]
  generalize List.range W = R at *
  induction this with
  | nil => exact List.Forall₂.nil
  | cons a _ ih => exact List.rel_append (dumpItems_spec ser _ _ a) ih

theorem lastIdx_fold (pid : Nat) : ∀ (l : List (Nat × Nat)) (a : Nat), (∀ p ∈ l, p.1 ≠ pid) → l.foldl (fun i p => if p.1 = pid then p.2 else i) a = a := by
  intro l
  induction l with
  | nil => intro a _; rfl
  | cons x l ih =>
    intro a h
    rw [List.foldl_cons, if_neg (h x List.mem_cons_self)]
    exact ih a (fun p hp => h p (List.mem_cons_of_mem _ hp))

theorem lastIdx_aux : ∀ (g : List Nat) (k a i p : Nat), g.Nodup → g[i]? = some p →
    (g.zipIdx k).foldl (fun i q => if q.1 = p then q.2 else i) a = k + i := by
  intro g
  induction g with
  | nil => intro k a i p _ h; simp at h
  | cons x g ih =>
    intro k a i p hn h
    rw [List.nodup_cons] at hn
    rw [List.zipIdx_cons, List.foldl_cons]
    cases i with
    | zero =>
      simp only [List.getElem?_cons_zero, Option.some.injEq] at h
      subst h
      simp only [if_true]
      rw [lastIdx_fold _ _ _ (fun q hq => ?_)]; rfl
      intro e
      have hq' : q.1 ∈ g := by
        obtain ⟨h1, h2, h3⟩ := List.mem_zipIdx (show (q.1, q.2) ∈ g.zipIdx (k + 1) from hq)
        rw [h3]; exact List.getElem_mem _
      exact hn.1 (by rw [← e]; exact hq')
    | succ i =>
      rw [List.getElem?_cons_succ] at h
      rw [ih (k + 1) _ i p hn.2 h]; omega

theorem lastIdx_eq {g : List Nat} (hn : g.Nodup) {i p : Nat} (h : g[i]? = some p) : lastIdx g p = i := by
  have := lastIdx_aux g 0 0 i p hn h
  rw [Nat.zero_add] at this
  exact this

theorem exScan64_length : ∀ (l : List Nat) (a : Nat), (exScan64 a l).length = l.length := by
  intro l
  induction l with
  | nil => intro a; rfl
  | cons x l ih => intro a; rw [exScan64, List.length_cons, ih, List.length_cons]

theorem exScan64_get : ∀ (l1 l2 : List Nat) (x a : Nat), a + (l1 ++ x :: l2).sum < 2 ^ 64 → (exScan64 a (l1 ++ x :: l2))[l1.length]? = some (a + l1.sum) := by
  intro l1
  induction l1 with
  | nil => intro l2 x a _; simp [exScan64]
  | cons y l1 ih =>
    intro l2 x a h
    rw [List.cons_append, List.sum_cons] at h
    rw [List.cons_append, exScan64, List.length_cons, List.getElem?_cons_succ]
    have e : u64add a y = a + y := by unfold u64add; exact Nat.mod_eq_of_lt (by omega)
    rw [e, ih l2 x (a + y) (by omega), List.sum_cons]
    congr 1; omega

theorem exScan64_lt : ∀ (l : List Nat) (a : Nat), a + l.sum < 2 ^ 64 → ∀ x ∈ exScan64 a l, x < 2 ^ 64 := by
  intro l
  induction l with
  | nil => intro a _ x hx; exact absurd hx List.not_mem_nil
  | cons y l ih =>
    intro a h x hx
    rw [List.sum_cons] at h
    rw [exScan64, List.mem_cons] at hx
    have e : u64add a y = a + y := by unfold u64add; exact Nat.mod_eq_of_lt (by omega)
    rw [e] at hx
    rcases hx with rfl | hx
    · omega
    · exact ih _ (by omega) x hx

theorem itemWrites_spec (head : Nat) (pids offs : List Nat) : ∀ (is : List (Nat × List Byte)) (ws : List FWrite), itemWrites head pids offs is = .ok ws →
    ∀ w, w ∈ ws ↔ ∃ i ∈ is, ∃ o, offs[lastIdx pids i.1]? = some o ∧ w ∈ writeAtLarge i.2 (head + o) := by
  intro is
  induction is with
  | nil => intro ws h w; rw [itemWrites, Res.ok.injEq] at h; rw [← h]; simp
  | cons i is ih =>
    obtain ⟨pid, b⟩ := i
    intro ws h w
    rw [itemWrites] at h
    cases ho : offs[lastIdx pids pid]? with
    | none => rw [ho] at h; cases h
    | some o =>
      rw [ho] at h
      cases hr : itemWrites head pids offs is with
      | ok ws' =>
        simp only [hr, Res.bind, Res.ok.injEq] at h
        rw [← h, List.mem_append, ih ws' hr w]
        constructor
        · rintro (hw | ⟨i, hi, q⟩)
          · exact ⟨(pid, b), List.mem_cons_self, o, ho, hw⟩
          · exact ⟨i, List.mem_cons_of_mem _ hi, q⟩
        · rintro ⟨i, hi, o', q1, q2⟩
          rcases List.mem_cons.1 hi with rfl | hi
          · rw [show lastIdx pids (pid, b).1 = lastIdx pids pid from rfl, ho, Option.some.injEq] at q1
            subst q1
            exact Or.inl q2
          · exact Or.inr ⟨i, hi, o', q1, q2⟩
      | throws => simp only [hr, Res.bind] at h; cases h
      | ub => simp only [hr, Res.bind] at h; cases h

theorem itemWrites_ok (head : Nat) (pids offs : List Nat) : ∀ (is : List (Nat × List Byte)), (∀ i ∈ is, ∃ o, offs[lastIdx pids i.1]? = some o) →
    ∃ ws, itemWrites head pids offs is = .ok ws := by
  intro is
  induction is with
  | nil => intro _; exact ⟨[], rfl⟩
  | cons i is ih =>
    obtain ⟨pid, b⟩ := i
    intro h
    obtain ⟨o, ho⟩ := h (pid, b) List.mem_cons_self
    obtain ⟨ws, hw⟩ := ih (fun q hq => h q (List.mem_cons_of_mem _ hq))
    have ho : offs[lastIdx pids pid]? = some o := ho
    exact ⟨writeAtLarge b (head + o) ++ ws, by rw [itemWrites]; simp only [ho, hw, Res.bind]⟩

theorem allItemWrites_spec (head : Nat) (pids offs : List Nat) : ∀ (items : List (List (Nat × List Byte))) (ws : List (List FWrite)), allItemWrites head pids offs items = .ok ws →
    ∀ w, w ∈ ws.flatten ↔ ∃ i ∈ items.flatten, ∃ o, offs[lastIdx pids i.1]? = some o ∧ w ∈ writeAtLarge i.2 (head + o) := by
  intro items
  induction items with
  | nil => intro ws h w; rw [allItemWrites, Res.ok.injEq] at h; rw [← h]; simp
  | cons is items ih =>
    intro ws h w
    rw [allItemWrites] at h
    cases ho : itemWrites head pids offs is with
    | ok w1 =>
      rw [ho] at h
      cases hr : allItemWrites head pids offs items with
      | ok ws' =>
        simp only [hr, Res.bind, Res.ok.injEq] at h
        rw [← h, List.flatten_cons, List.flatten_cons, List.mem_append, ih ws' hr w, itemWrites_spec head pids offs is w1 ho w]
        constructor
        · rintro (⟨i, hi, q⟩ | ⟨i, hi, q⟩)
          · exact ⟨i, List.mem_append_left _ hi, q⟩
          · exact ⟨i, List.mem_append_right _ hi, q⟩
        · rintro ⟨i, hi, q⟩
          rcases List.mem_append.1 hi with hi | hi
          · exact Or.inl ⟨i, hi, q⟩
          · exact Or.inr ⟨i, hi, q⟩
      | throws => simp only [hr, Res.bind] at h; cases h
      | ub => simp only [hr, Res.bind] at h; cases h
    | throws => rw [ho] at h; cases h
    | ub => rw [ho] at h; cases h

theorem allItemWrites_ok (head : Nat) (pids offs : List Nat) : ∀ (items : List (List (Nat × List Byte))), (∀ i ∈ items.flatten, ∃ o, offs[lastIdx pids i.1]? = some o) →
    ∃ ws, allItemWrites head pids offs items = .ok ws ∧ ws.length = items.length := by
  intro items
  induction items with
  | nil => intro _; exact ⟨[], rfl, rfl⟩
  | cons is items ih =>
    intro h
    obtain ⟨w1, h1⟩ := itemWrites_ok head pids offs is (fun i hi => h i (by rw [List.flatten_cons]; exact List.mem_append_left _ hi))
    obtain ⟨ws, hw, hl⟩ := ih (fun i hi => h i (by rw [List.flatten_cons]; exact List.mem_append_right _ hi))
    exact ⟨w1 :: ws, by rw [allItemWrites, h1]; simp only [hw, Res.bind], by rw [List.length_cons, List.length_cons, hl]⟩

/-- The offset of an item: the total size of the items before it. -/
theorem item_offset {L L1 L2 : List (Nat × List Byte)} {pid : Nat} {b : List Byte} (hL : L = L1 ++ (pid, b) :: L2) (hn : (L.map (·.1)).Nodup)
    (hs : (L.map (·.2.length)).sum < 2 ^ 64) : lastIdx (L.map (·.1)) pid = L1.length ∧
      (exScan64 0 (L.map (·.2.length)))[L1.length]? = some (L1.flatMap (·.2)).length ∧ (L.map (·.2.length))[L1.length]? = some b.length := by
  have e : L.map (·.2.length) = L1.map (·.2.length) ++ b.length :: L2.map (·.2.length) := by rw [hL, List.map_append, List.map_cons]
  refine ⟨lastIdx_eq hn ?_, ?_, ?_⟩
  · rw [List.getElem?_map, hL, List.getElem?_append_right (le_refl _), Nat.sub_self]; rfl
  · have := exScan64_get (L1.map (·.2.length)) (L2.map (·.2.length)) b.length 0 (by rw [← e, Nat.zero_add]; exact hs)
    rw [List.length_map, ← e] at this
    rw [this, Nat.zero_add, List.length_flatMap]
  · rw [List.getElem?_map, hL, List.getElem?_append_right (le_refl _), Nat.sub_self]; rfl

/-- The contents of the file. -/
def dumpText (user mt tt : List Byte) (L : List (Nat × List Byte)) : List Byte := headerBytes user ++ headerBytes mt ++ headerBytes tt ++ L.flatMap (·.2)

theorem item_mem {L : List (Nat × List Byte)} {i : Nat × List Byte} (h : i ∈ L) : ∃ L1 L2, L = L1 ++ i :: L2 := List.append_of_mem h

theorem items_write {items : List (List (Nat × List Byte))} {A : List Byte} (hn : (items.flatten.map (·.1)).Nodup) (hs : (items.flatten.map (·.2.length)).sum < 2 ^ 64)
    {ws : List (List FWrite)} (h : allItemWrites A.length (items.flatten.map (·.1)) (exScan64 0 (items.flatten.map (·.2.length))) items = .ok ws) :
    (∀ w ∈ ws.flatten, FWrite.Agrees (A ++ items.flatten.flatMap (·.2)) w) ∧
    ∀ x, A.length ≤ x → x < (A ++ items.flatten.flatMap (·.2)).length → ∃ w ∈ ws.flatten, w.1 ≤ x ∧ x < w.1 + w.2.length := by
  have hmem := allItemWrites_spec _ _ _ items ws h
  generalize items.flatten = L at *
  refine ⟨fun w hw => ?_, fun x h1 h2 => ?_⟩
  · obtain ⟨⟨pid, b⟩, hi, o, ho, hw⟩ := (hmem w).1 hw
    obtain ⟨L1, L2, hL⟩ := item_mem hi
    obtain ⟨q1, q2, -⟩ := item_offset hL hn hs
    have ho' : (exScan64 0 (L.map (·.2.length)))[lastIdx (L.map (·.1)) pid]? = some o := ho
    rw [q1, q2, Option.some.injEq] at ho'
    subst ho'
    refine writeAtLarge_agrees (A := A ++ L1.flatMap (·.2)) (B := b) (C := L2.flatMap (·.2)) ?_ w ?_
    · rw [hL, List.flatMap_append, List.flatMap_cons]; simp only [List.append_assoc]
    · rw [List.length_append]; exact hw
  · rw [List.length_append] at h2
    -- the item that contains the position
    have key : ∀ (M : List (Nat × List Byte)) (y : Nat), y < (M.flatMap (·.2)).length → ∃ L1 i L2, M = L1 ++ i :: L2 ∧ (L1.flatMap (·.2)).length ≤ y ∧ y < (L1.flatMap (·.2)).length + i.2.length := by
      intro M
      induction M with
      | nil => intro y hy; simp at hy
      | cons i M ih =>
        intro y hy
        rw [List.flatMap_cons, List.length_append] at hy
        by_cases hc : y < i.2.length
        · exact ⟨[], i, M, rfl, by simp, by simpa using hc⟩
        · obtain ⟨L1, j, L2, e1, e2, e3⟩ := ih (y - i.2.length) (by omega)
          refine ⟨i :: L1, j, L2, by rw [e1]; rfl, ?_, ?_⟩ <;> rw [List.flatMap_cons, List.length_append] <;> omega
    obtain ⟨L1, i, L2, e1, e2, e3⟩ := key L (x - A.length) (by omega)
    obtain ⟨pid, b⟩ := i
    obtain ⟨q1, q2, -⟩ := item_offset e1 hn hs
    obtain ⟨w, hw, hx⟩ := writeAtLarge_cover (B := b) (head := A.length + (L1.flatMap (·.2)).length) (x := x) (by omega) (by have e3 : x - A.length < (L1.flatMap (·.2)).length + b.length := e3; omega)
    exact ⟨w, (hmem w).2 ⟨(pid, b), by rw [e1]; simp, _, by show (exScan64 0 _)[lastIdx _ pid]? = _; rw [q1]; exact q2, hw⟩, hx⟩

theorem dump_text {user mt tt : List Byte} {items : List (List (Nat × List Byte))} (hn : (items.flatten.map (·.1)).Nodup) (hs : (items.flatten.map (·.2.length)).sum < 2 ^ 64)
    {w0 : List FWrite} {ws : List (List FWrite)}
    (h : allItemWrites (8 + user.length + (8 + mt.length) + (8 + tt.length)) (items.flatten.map (·.1)) (exScan64 0 (items.flatten.map (·.2.length))) items = .ok (w0 :: ws))
    {f : FileC} (hf : DumpFile ((headerWrites 0 user ++ headerWrites (8 + user.length) mt ++ headerWrites (8 + user.length + (8 + mt.length)) tt ++ w0) :: ws) f) :
    f = fun x => (dumpText user mt tt items.flatten)[x]? := by
  obtain ⟨order, hp, rfl⟩ := hf
  obtain ⟨A, hA⟩ : ∃ A, A = headerBytes user ++ headerBytes mt ++ headerBytes tt := ⟨_, rfl⟩
  have hAl : A.length = 8 + user.length + (8 + mt.length) + (8 + tt.length) := by
    rw [hA, List.length_append, List.length_append, headerBytes_length, headerBytes_length, headerBytes_length]
  obtain ⟨a1, a2⟩ := items_write (A := A) hn hs (by rw [hAl]; exact h)
  have hT : dumpText user mt tt items.flatten = A ++ items.flatten.flatMap (·.2) := by rw [hA]; rfl
  have hfl : ∀ w, w ∈ ((headerWrites 0 user ++ headerWrites (8 + user.length) mt ++ headerWrites (8 + user.length + (8 + mt.length)) tt ++ w0) :: ws).flatten ↔
      w ∈ headerWrites 0 user ∨ w ∈ headerWrites (8 + user.length) mt ∨ w ∈ headerWrites (8 + user.length + (8 + mt.length)) tt ∨ w ∈ (w0 :: ws).flatten := by
    intro w
    rw [List.flatten_cons, List.flatten_cons, List.mem_append, List.mem_append, List.mem_append, List.mem_append, List.mem_append]
    simp only [or_assoc]
  rw [hT]
  refine file_eq _ _ _ hp ?_ ?_
  · intro w hw
    rcases (hfl w).1 hw with hw | hw | hw | hw
    · exact headerWrites_agrees (s := user) (A := []) (C := headerBytes mt ++ headerBytes tt ++ items.flatten.flatMap (·.2)) (by rw [hA]; simp only [List.append_assoc, List.nil_append]) w hw
    · exact headerWrites_agrees (s := mt) (A := headerBytes user) (C := headerBytes tt ++ items.flatten.flatMap (·.2)) (by rw [hA]; simp only [List.append_assoc]) w (by rw [headerBytes_length]; exact hw)
    · exact headerWrites_agrees (s := tt) (A := headerBytes user ++ headerBytes mt) (C := items.flatten.flatMap (·.2)) (by rw [hA]) w
        (by rw [List.length_append, headerBytes_length, headerBytes_length]; exact hw)
    · exact a1 w hw
  · intro x hx
    by_cases h1 : x < 8 + user.length
    · obtain ⟨w, hw, q⟩ := headerWrites_cover (head := 0) (x := x) (s := user) (by omega) (by omega)
      exact ⟨w, (hfl w).2 (Or.inl hw), q⟩
    by_cases h2 : x < 8 + user.length + (8 + mt.length)
    · obtain ⟨w, hw, q⟩ := headerWrites_cover (head := 8 + user.length) (x := x) (s := mt) (by omega) (by omega)
      exact ⟨w, (hfl w).2 (Or.inr (Or.inl hw)), q⟩
    by_cases h3 : x < 8 + user.length + (8 + mt.length) + (8 + tt.length)
    · obtain ⟨w, hw, q⟩ := headerWrites_cover (head := 8 + user.length + (8 + mt.length)) (x := x) (s := tt) (by omega) (by omega)
      exact ⟨w, (hfl w).2 (Or.inr (Or.inr (Or.inl hw))), q⟩
    · obtain ⟨w, hw, q⟩ := a2 x (by omega) hx
      exact ⟨w, (hfl w).2 (Or.inr (Or.inr (Or.inr hw))), q⟩

/-- An item is read back from the file. -/
theorem item_read {user mt tt : List Byte} {L : List (Nat × List Byte)} (hn : (L.map (·.1)).Nodup) (hs : (L.map (·.2.length)).sum < 2 ^ 64) {pid : Nat} {b : List Byte} (h : (pid, b) ∈ L) :
    (readAtLarge (fun x => (dumpText user mt tt L)[x]?) (offTable (L.map (·.1)) (exScan64 0 (L.map (·.2.length))) (L.map (·.2.length)) pid).2
      (8 + user.length + (8 + mt.length) + (8 + tt.length) + (offTable (L.map (·.1)) (exScan64 0 (L.map (·.2.length))) (L.map (·.2.length)) pid).1)) = .ok b := by
  obtain ⟨L1, L2, hL⟩ := item_mem h
  obtain ⟨q1, q2, q3⟩ := item_offset hL hn hs
  have ht : offTable (L.map (·.1)) (exScan64 0 (L.map (·.2.length))) (L.map (·.2.length)) pid = ((L1.flatMap (·.2)).length, b.length) := by
    unfold offTable
    rw [if_pos (List.mem_map_of_mem (f := fun i : Nat × List Byte => i.1) h), q1, q2, q3]; rfl
  rw [ht]
  have := readAtLarge_eq (T := dumpText user mt tt L) (A := headerBytes user ++ headerBytes mt ++ headerBytes tt ++ L1.flatMap (·.2)) (B := b) (C := L2.flatMap (·.2)) (by
    unfold dumpText
    rw [hL, List.flatMap_append, List.flatMap_cons]; simp only [List.append_assoc])
  rw [List.length_append, List.length_append, List.length_append, headerBytes_length, headerBytes_length, headerBytes_length] at this
  exact this

theorem loadItems_spec {α : Type} (des : List Byte → Res (PLayer α)) (f : FileC) (head : Nat) (tab : Nat → Nat × Nat) (lyr : Nat → PLayer α) : ∀ (qs : List Patch) (d : RankData α),
    MapOk d → (qs.map (·.idPatch)).Nodup → (∀ p ∈ qs, mfind d p.idPatch = none) →
    (∀ p ∈ qs, ∃ b, readAtLarge f (tab p.idPatch).2 (head + (tab p.idPatch).1) = .ok b ∧ des b = .ok (lyr p.idPatch)) →
    ∃ d', loadItems des f head tab qs d = .ok d' ∧ MapOk d' ∧ ∀ k, mfind d' k = if k ∈ qs.map (·.idPatch) then some (lyr k) else mfind d k := by
  intro qs
  induction qs with
  | nil => intro d hd _ _ _; exact ⟨d, rfl, hd, fun k => by simp⟩
  | cons p qs ih =>
    intro d hd hn hf h
    rw [List.map_cons, List.nodup_cons] at hn
    obtain ⟨b, h1, h2⟩ := h p List.mem_cons_self
    obtain ⟨d1, a1, a2, a3⟩ := addAll_spec [(p.idPatch, lyr p.idPatch)] d hd (by simp) (by
      intro k hk
      rw [List.map_cons, List.map_nil, List.mem_singleton] at hk
      rw [hk]; exact hf p List.mem_cons_self)
    have a3' : ∀ k, mfind d1 k = if k = p.idPatch then some (lyr p.idPatch) else mfind d k := by
      intro k
      rw [a3]
      by_cases hk : k = p.idPatch
      · rw [if_pos hk, hk]; simp [mfind]
      · rw [if_neg hk]
        have : mfind [(p.idPatch, lyr p.idPatch)] k = none := by simp [mfind, Ne.symm hk]
        rw [this]; rfl
    obtain ⟨d', b1, b2, b3⟩ := ih d1 a2 hn.2 (fun q hq => by
      rw [a3', if_neg (fun e => hn.1 (by rw [← e]; exact List.mem_map_of_mem (f := (·.idPatch)) hq))]
      exact hf q (List.mem_cons_of_mem _ hq)) (fun q hq => h q (List.mem_cons_of_mem _ hq))
    refine ⟨d', ?_, b2, fun k => ?_⟩
    · rw [loadItems, h1]
      simp only [Res.bind, h2, a1]
      exact b1
    · rw [b3, a3', List.map_cons]
      by_cases h1 : k ∈ qs.map (·.idPatch)
      · rw [if_pos h1, if_pos (List.mem_cons_of_mem _ h1)]
      · rw [if_neg h1]
        by_cases h2 : k = p.idPatch
        · rw [if_pos h2, if_pos (by rw [h2]; exact List.mem_cons_self), h2]
        · rw [if_neg h2, if_neg]
          intro h3
          rcases List.mem_cons.1 h3 with h3 | h3
          · exact h2 h3
          · exact h1 h3

end Shamrock
