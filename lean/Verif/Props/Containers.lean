import Verif.Model.Containers
import Mathlib.Data.List.Basic
import Mathlib.Data.List.Perm.Basic
import Mathlib.Data.List.Sort
import Mathlib.Tactic.Ring
import Mathlib.Data.Finset.Card
import Mathlib.Data.Finset.Range
import Mathlib.Data.Finset.Dedup
/-! Properties C16, C21, C22, C23, C30: small containers and id generators. -/
namespace Shamrock

/-! ### C30 FixedStack -/

/-- Specification: a bounded LIFO of capacity `cap` is a list (top first); `none` = the caller broke the contract
(push on a full stack, pop/top on an empty one). -/
def lifoStep {T : Type} (cap : Nat) (l : List T) : StackOp T → Option (StackObs T × List T)
  | .push v => if l.length < cap then some (.unit, v :: l) else none
  | .pop => match l with | [] => none | _ :: t => some (.unit, t)
  | .popRet => match l with | [] => none | v :: t => some (.val v, t)
  | .top => match l with | [] => none | v :: _ => some (.val v, l)
  | .isEmpty => some (.bool (l.length = 0), l)
  | .isNotEmpty => some (.bool (l.length ≠ 0), l)
  | .size => some (.nat l.length, l)

/-- Specification: a history on the bounded LIFO. -/
def lifoRun {T : Type} (cap : Nat) : List T → List (StackOp T) → Option (List (StackObs T) × List T)
  | l, [] => some ([], l)
  | l, op :: ops =>
    match lifoStep cap l op with
    | none => none
    | some (o, l') =>
      match lifoRun cap l' ops with
      | none => none
      | some (os, l'') => some (o :: os, l'')

/-- Refinement relation between the array-with-cursor and the list. -/
def StackRel {T : Type} {n : Nat} (s : FixedStack T n) (l : List T) : Prop :=
  s.mem.length = n ∧ l.length ≤ n ∧ s.cursor = n - l.length ∧ ∀ i (h : i < l.length), s.mem[s.cursor + i]? = some (some l[i])

theorem stack_step {T : Type} {n : Nat} (hn : n < 2 ^ 32) (s : FixedStack T n) (l l' : List T) (op : StackOp T)
    (o : StackObs T) (h : StackRel s l) (hs : lifoStep n l op = some (o, l')) :
    ∃ s', s.step op = some (o, s') ∧ StackRel s' l' := by
  obtain ⟨h1, h2, h3, h4⟩ := h
  cases op with
  | push v =>
    simp only [lifoStep] at hs
    split at hs
    · next hlt =>
      simp only [Option.some.injEq, Prod.mk.injEq] at hs
      obtain ⟨rfl, rfl⟩ := hs
      have hc : (s.cursor + 2 ^ 32 - 1) % 2 ^ 32 = n - l.length - 1 := by omega
      refine ⟨⟨s.mem.set (n - l.length - 1) (some v), n - l.length - 1⟩, ?_, ?_⟩
      · simp only [FixedStack.step, FixedStack.push, FixedStack.store, hc]
        rw [if_pos (by omega)]; simp only [Option.map_some]
      · refine ⟨by simpa using h1, by simp; omega, by simp; omega, ?_⟩
        intro i hi
        simp only [List.length_cons] at hi
        rcases i with _ | i
        · simp only [Nat.add_zero, List.getElem_cons_zero]
          rw [List.getElem?_set_self (by omega)]
        · simp only [List.getElem_cons_succ]
          have e : n - l.length - 1 + (i + 1) = s.cursor + i := by omega
          rw [List.getElem?_set_ne (by omega), ← h4 i (by omega), e]
    · cases hs
  | pop =>
    cases l with
    | nil => simp [lifoStep] at hs
    | cons v t =>
      simp only [lifoStep, Option.some.injEq, Prod.mk.injEq] at hs
      obtain ⟨rfl, rfl⟩ := hs
      simp only [List.length_cons] at h2 h3 h4
      have hc : (s.cursor + 1) % 2 ^ 32 = n - t.length := by omega
      refine ⟨_, rfl, h1, by omega, hc, fun i hi => ?_⟩
      have := h4 (i + 1) (by omega)
      simp only [List.getElem_cons_succ] at this
      rw [← this]
      simp only [FixedStack.pop, hc]
      congr 1; omega
  | popRet =>
    cases l with
    | nil => simp [lifoStep] at hs
    | cons v t =>
      simp only [lifoStep, Option.some.injEq, Prod.mk.injEq] at hs
      obtain ⟨rfl, rfl⟩ := hs
      simp only [List.length_cons] at h2 h3 h4
      have hc : (s.cursor + 1) % 2 ^ 32 = n - t.length := by omega
      have h0 := h4 0 (by omega)
      simp only [Nat.add_zero, List.getElem_cons_zero] at h0
      have htop : s.top = some v := by simp [FixedStack.top, h0]
      refine ⟨s.pop, by simp [FixedStack.step, FixedStack.popRet, htop], h1, by omega, hc, fun i hi => ?_⟩
      have := h4 (i + 1) (by omega)
      simp only [List.getElem_cons_succ] at this
      rw [← this]
      simp only [FixedStack.pop, hc]
      congr 1; omega
  | top =>
    cases l with
    | nil => simp [lifoStep] at hs
    | cons v t =>
      simp only [lifoStep, Option.some.injEq, Prod.mk.injEq] at hs
      obtain ⟨rfl, rfl⟩ := hs
      have h0 := h4 0 (by simp)
      simp only [Nat.add_zero, List.getElem_cons_zero] at h0
      have htop : s.top = some v := by simp [FixedStack.top, h0]
      exact ⟨s, by simp [FixedStack.step, htop], h1, h2, h3, h4⟩
  | isEmpty =>
    simp only [lifoStep, Option.some.injEq, Prod.mk.injEq] at hs
    obtain ⟨rfl, rfl⟩ := hs
    refine ⟨s, ?_, h1, h2, h3, h4⟩
    simp only [FixedStack.step, FixedStack.isEmpty, Option.some.injEq, Prod.mk.injEq, and_true, StackObs.bool.injEq]
    rw [Bool.eq_iff_iff]; simp only [beq_iff_eq, decide_eq_true_eq]; omega
  | isNotEmpty =>
    simp only [lifoStep, Option.some.injEq, Prod.mk.injEq] at hs
    obtain ⟨rfl, rfl⟩ := hs
    refine ⟨s, ?_, h1, h2, h3, h4⟩
    simp only [FixedStack.step, FixedStack.isNotEmpty, Option.some.injEq, Prod.mk.injEq, and_true, StackObs.bool.injEq]
    rw [Bool.eq_iff_iff]
    simp only [decide_eq_true_eq]; omega
  | size =>
    simp only [lifoStep, Option.some.injEq, Prod.mk.injEq] at hs
    obtain ⟨rfl, rfl⟩ := hs
    refine ⟨s, ?_, h1, h2, h3, h4⟩
    simp only [FixedStack.step, FixedStack.size, Option.some.injEq, Prod.mk.injEq, and_true, StackObs.nat.injEq]
    omega

theorem stack_run {T : Type} {n : Nat} (hn : n < 2 ^ 32) (ops : List (StackOp T)) :
    ∀ (s : FixedStack T n) (l l' : List T) (os : List (StackObs T)), StackRel s l →
    lifoRun n l ops = some (os, l') → ∃ s', s.run ops = some (os, s') ∧ StackRel s' l' := by
  induction ops with
  | nil =>
    intro s l l' os h hs
    simp only [lifoRun, Option.some.injEq, Prod.mk.injEq] at hs
    obtain ⟨rfl, rfl⟩ := hs
    exact ⟨s, rfl, h⟩
  | cons op ops ih =>
    intro s l l' os h hs
    simp only [lifoRun] at hs
    split at hs
    · cases hs
    · next o l1 ho =>
      split at hs
      · cases hs
      · next os1 l2 hr =>
        simp only [Option.some.injEq, Prod.mk.injEq] at hs
        obtain ⟨rfl, rfl⟩ := hs
        obtain ⟨s1, e1, r1⟩ := stack_step hn s l l1 op o h ho
        obtain ⟨s2, e2, r2⟩ := ih s1 l1 l2 os1 r1 hr
        exact ⟨s2, by simp [FixedStack.run, e1, e2], r2⟩

/-- C30: over every history that respects the contract of a bounded LIFO, a fresh `FixedStack` shows exactly the same
observations as the LIFO and never leaves its array (`run` is never `none`). -/
theorem C30_fixed_stack_is_lifo {T : Type} (n : Nat) (hn : n < 2 ^ 32) (ops : List (StackOp T))
    (os : List (StackObs T)) (l : List T) (h : lifoRun n [] ops = some (os, l)) :
    ∃ s, (FixedStack.empty0 T n).run ops = some (os, s) := by
  obtain ⟨s, hs, _⟩ := stack_run hn ops (FixedStack.empty0 T n) [] l os
    ⟨by simp [FixedStack.empty0], by simp, by simp [FixedStack.empty0], fun i hi => absurd hi (by simp)⟩ h
  exact ⟨s, hs⟩

/-- C30: same for the constructor taking a first value. -/
theorem C30_fixed_stack_single_is_lifo {T : Type} (n : Nat) (h0 : 0 < n) (hn : n < 2 ^ 32) (v : T) (ops : List (StackOp T))
    (os : List (StackObs T)) (l : List T) (h : lifoRun n [v] ops = some (os, l)) :
    ∃ s, (FixedStack.single n v).run ops = some (os, s) := by
  obtain ⟨s, hs, _⟩ := stack_run hn ops (FixedStack.single n v) [v] l os
    ⟨by simp [FixedStack.single], by simp; omega, by simp [FixedStack.single], fun i hi => by
      simp only [List.length_singleton, Nat.lt_one_iff] at hi
      subst hi
      simp only [FixedStack.single, Nat.add_zero, List.getElem_cons_zero]
      rw [List.getElem?_set_self (by simp; omega)]⟩ h
  exact ⟨s, hs⟩

/-- C30: without the contract the array bounds are left: a push on a full stack and a top on an empty one are undefined
behaviour (the asserts are compiled out in release). -/
theorem C30_fixed_stack_contract_needed {T : Type} (n : Nat) (hn : n < 2 ^ 32) (v : T) (ops : List (StackOp T))
    (os : List (StackObs T)) (l : List T) (h : lifoRun n [] ops = some (os, l)) :
    ∃ s, (FixedStack.empty0 T n).run ops = some (os, s) ∧
      (l.length = n → s.push v = none) ∧ (l = [] → s.top = none) := by
  obtain ⟨s, hs, h1, h2, h3, h4⟩ := stack_run hn ops (FixedStack.empty0 T n) [] l os
    ⟨by simp [FixedStack.empty0], by simp, by simp [FixedStack.empty0], fun i hi => absurd hi (by simp)⟩ h
  refine ⟨s, hs, fun hl => ?_, fun hl => ?_⟩
  · have hc : (s.cursor + 2 ^ 32 - 1) % 2 ^ 32 = 2 ^ 32 - 1 := by omega
    simp only [FixedStack.push, FixedStack.store, hc]
    rw [if_neg (by omega)]
  · subst hl
    have : s.mem[s.cursor]? = none := by
      rw [List.getElem?_eq_none_iff]; simp at h3; omega
    simp [FixedStack.top, this]

example : ∃ s, (FixedStack.empty0 Nat 3).run [.push 7, .push 8, .size, .popRet, .push 9, .push 10, .popRet, .top, .pop, .pop,
    .isEmpty] = some ([.unit, .unit, .nat 2, .val 8, .unit, .unit, .val 10, .val 9, .unit, .unit, .bool true], s) :=
  C30_fixed_stack_is_lifo 3 (by decide) _ _ [] (by decide)

/-! ### C21 DistributedData -/

/-- std::map representation invariant: strictly increasing keys. -/
def MapOk {V : Type} (m : List (Nat × V)) : Prop := m.Pairwise (fun a b => a.1 < b.1)

theorem mfind_none {V : Type} {m : List (Nat × V)} {q : Nat} : mfind m q = none ↔ ∀ x ∈ m, x.1 ≠ q := by
  induction m with
  | nil => simp [mfind]
  | cons kv m ih =>
    obtain ⟨k, v⟩ := kv
    simp only [mfind, List.mem_cons, forall_eq_or_imp]
    by_cases h : k = q
    · simp [h]
    · simp [h, ih]

theorem mfind_some {V : Type} {m : List (Nat × V)} (hm : MapOk m) {q : Nat} {v : V} : mfind m q = some v ↔ (q, v) ∈ m := by
  induction m with
  | nil => simp [mfind]
  | cons kv m ih =>
    obtain ⟨k, w⟩ := kv
    have hm' := (List.pairwise_cons.1 hm)
    simp only [mfind, List.mem_cons, Prod.mk.injEq]
    by_cases h : k = q
    · subst h
      simp only [if_true, Option.some.injEq, true_and]
      constructor
      · rintro rfl; exact Or.inl rfl
      · rintro (rfl | h')
        · rfl
        · exact absurd (hm'.1 _ h') (by simp)
    · have : ¬ q = k := fun e => h e.symm
      simp [h, this, ih hm'.2]

theorem memplace_spec {V : Type} (m : List (Nat × V)) (hm : MapOk m) (q : Nat) (x : V) :
    MapOk (memplace m q x).1 ∧ ((memplace m q x).2 = (mfind m q).isNone) ∧
    (∀ k, mfind (memplace m q x).1 k = if k = q ∧ mfind m q = none then some x else mfind m k) ∧
    (∀ y ∈ (memplace m q x).1, y = (q, x) ∨ y ∈ m) := by
  induction m with
  | nil =>
    refine ⟨by simp [memplace, MapOk], by simp [memplace, mfind], fun k => ?_, by simp [memplace]⟩
    by_cases h : k = q
    · simp [memplace, mfind, h]
    · have : ¬ q = k := fun e => h e.symm
      simp [memplace, mfind, h, this]
  | cons kv m ih =>
    obtain ⟨k, v⟩ := kv
    have hm' := List.pairwise_cons.1 hm
    obtain ⟨i1, i2, i3, i4⟩ := ih hm'.2
    simp only [memplace]
    by_cases h1 : q < k
    · have hn : mfind m q = none := mfind_none.2 fun y hy => by have := hm'.1 y hy; simp at this; omega
      rw [if_pos h1]
      refine ⟨?_, ?_, fun a => ?_, by simp⟩
      · refine List.pairwise_cons.2 ⟨?_, hm⟩
        intro y hy
        rcases List.mem_cons.1 hy with rfl | hy
        · exact h1
        · have := hm'.1 y hy; simp at this ⊢; omega
      · simp only [mfind]; rw [if_neg (by omega), hn]; rfl
      · by_cases ha : a = q
        · subst ha
          simp only [mfind, if_true, true_and]
          rw [if_neg (show ¬ k = a by omega), hn, if_pos rfl]
        · have ha' : ¬ q = a := fun e => ha e.symm
          simp [mfind, ha, ha']
    · rw [if_neg h1]
      by_cases h2 : q = k
      · subst h2
        rw [if_pos rfl]
        refine ⟨hm, by simp [mfind], fun a => ?_, fun y hy => Or.inr hy⟩
        simp [mfind]
      · rw [if_neg h2]
        refine ⟨?_, ?_, fun a => ?_, ?_⟩
        · refine List.pairwise_cons.2 ⟨?_, i1⟩
          intro y hy
          rcases i4 y hy with rfl | hy
          · simp; omega
          · exact hm'.1 y hy
        · simp only [mfind]; rw [if_neg (fun e => h2 e.symm)]; exact i2
        · have h2' : ¬ k = q := fun e => h2 e.symm
          by_cases ha : k = a
          · subst ha
            simp [mfind, h2']
          · simp [mfind, h2', ha, i3]
        · intro y hy
          rcases List.mem_cons.1 hy with rfl | hy
          · exact Or.inr (by simp)
          · rcases i4 y hy with h | h
            · exact Or.inl h
            · exact Or.inr (List.mem_cons_of_mem _ h)

theorem merase_spec {V : Type} (m : List (Nat × V)) (hm : MapOk m) (q : Nat) :
    MapOk (merase m q) ∧ (∀ k, mfind (merase m q) k = if k = q then none else mfind m k) ∧
    (∀ y ∈ merase m q, y ∈ m) := by
  induction m with
  | nil => exact ⟨hm, fun k => by simp [merase, mfind], by simp [merase]⟩
  | cons kv m ih =>
    obtain ⟨k, v⟩ := kv
    have hm' := List.pairwise_cons.1 hm
    obtain ⟨i1, i2, i3⟩ := ih hm'.2
    simp only [merase]
    by_cases h : k = q
    · subst h
      rw [if_pos rfl]
      refine ⟨hm'.2, fun a => ?_, fun y hy => List.mem_cons_of_mem _ hy⟩
      by_cases ha : a = k
      · subst ha
        rw [if_pos rfl]
        exact mfind_none.2 fun y hy => by have := hm'.1 y hy; simp at this; omega
      · rw [if_neg ha]; simp only [mfind]; rw [if_neg (fun e => ha e.symm)]
    · rw [if_neg h]
      refine ⟨List.pairwise_cons.2 ⟨fun y hy => hm'.1 y (i3 y hy), i1⟩, fun a => ?_, fun y hy => ?_⟩
      · simp only [mfind]
        by_cases ha : k = a
        · subst ha; simp [h]
        · rw [if_neg ha, i2, if_neg ha]
      · rcases List.mem_cons.1 hy with rfl | hy
        · simp
        · exact List.mem_cons_of_mem _ (i3 y hy)

/-- Operations of `DistributedData`. -/
inductive DDOp (V : Type) where
  | add (id : Nat) (x : V)
  | erase (id : Nat)
  | get (id : Nat)
  | hasKey (id : Nat)
  | getIds
  | count
  | isEmpty
  | reset

/-- Observations; `thrown` is a C++ exception. -/
inductive DDObs (V : Type) where
  | ok
  | thrown
  | val (v : V)
  | bool (b : Bool)
  | nat (n : Nat)
  | ids (l : List Nat)

/-- One operation on the model of the code. -/
def ddStep {V : Type} (m : List (Nat × V)) : DDOp V → DDObs V × List (Nat × V)
  | .add id x => match ddAddObj m id x with | (m', some ()) => (.ok, m') | (m', none) => (.thrown, m')
  | .erase id => (.ok, ddErase m id)
  | .get id => match ddGet m id with | some v => (.val v, m) | none => (.thrown, m)
  | .hasKey id => (.bool (ddHasKey m id), m)
  | .getIds => (.ids (ddGetIds m), m)
  | .count => (.nat (ddCount m), m)
  | .isEmpty => (.bool (ddIsEmpty m), m)
  | .reset => (.ok, ddReset m)

def ddRun {V : Type} : List (Nat × V) → List (DDOp V) → List (DDObs V) × List (Nat × V)
  | m, [] => ([], m)
  | m, op :: ops =>
    let r := ddStep m op
    let r' := ddRun r.2 ops
    (r.1 :: r'.1, r'.2)

/-- The list of ids of the finite map `f`: strictly increasing and exactly its domain. -/
def IsIdList {V : Type} (f : Nat → Option V) (l : List Nat) : Prop :=
  l.Pairwise (· < ·) ∧ ∀ k, k ∈ l ↔ f k ≠ none

/-- Specification: `DistributedData` is a partial function from ids to objects with finite domain. -/
inductive DDSpec {V : Type} : (Nat → Option V) → DDOp V → DDObs V → (Nat → Option V) → Prop
  | addFresh (f) (id x) : f id = none → DDSpec f (.add id x) .ok (fun k => if k = id then some x else f k)
  | addExisting (f) (id x) : f id ≠ none → DDSpec f (.add id x) .thrown f
  | erase (f) (id) : DDSpec f (.erase id) .ok (fun k => if k = id then none else f k)
  | getOk (f) (id v) : f id = some v → DDSpec f (.get id) (.val v) f
  | getThrow (f) (id) : f id = none → DDSpec f (.get id) .thrown f
  | hasKey (f) (id) : DDSpec f (.hasKey id) (.bool (f id).isSome) f
  | getIds (f l) : IsIdList f l → DDSpec f .getIds (.ids l) f
  | count (f l) : IsIdList f l → DDSpec f .count (.nat l.length) f
  | isEmpty (f b) : (b = true ↔ ∀ k, f k = none) → DDSpec f .isEmpty (.bool b) f
  | reset (f) : DDSpec f .reset .ok (fun _ => none)

/-- Specification: a history of a finite map. -/
inductive DDSpecRun {V : Type} : (Nat → Option V) → List (DDOp V) → List (DDObs V) → Prop
  | nil (f) : DDSpecRun f [] []
  | cons (f op o f' ops os) : DDSpec f op o f' → DDSpecRun f' ops os → DDSpecRun f (op :: ops) (o :: os)

theorem dd_isIdList {V : Type} (m : List (Nat × V)) (hm : MapOk m) : IsIdList (mfind m) (m.map Prod.fst) := by
  refine ⟨List.pairwise_map.2 hm, fun k => ?_⟩
  rw [ne_eq, mfind_none]
  simp only [List.mem_map, not_forall, Decidable.not_not, exists_prop]

theorem dd_step {V : Type} (m : List (Nat × V)) (hm : MapOk m) (op : DDOp V) :
    MapOk (ddStep m op).2 ∧ DDSpec (mfind m) op (ddStep m op).1 (mfind (ddStep m op).2) := by
  cases op with
  | add id x =>
    obtain ⟨h1, h2, h3, _⟩ := memplace_spec m hm id x
    simp only [ddStep, ddAddObj, h2]
    by_cases h : mfind m id = none
    · simp only [h, Option.isNone_none, Bool.not_true, Bool.false_eq_true, if_false]
      refine ⟨h1, ?_⟩
      have : mfind (memplace m id x).1 = fun k => if k = id then some x else mfind m k := by
        funext k; rw [h3]; simp [h]
      rw [this]; exact .addFresh _ _ _ h
    · have hn : (mfind m id).isNone = false := by cases hh : mfind m id <;> simp_all
      simp only [hn, Bool.not_false, if_true]
      refine ⟨h1, ?_⟩
      have : mfind (memplace m id x).1 = mfind m := by
        funext k; rw [h3]; simp [h]
      rw [this]; exact .addExisting _ _ _ h
  | erase id =>
    obtain ⟨h1, h2, _⟩ := merase_spec m hm id
    refine ⟨h1, ?_⟩
    have : mfind (merase m id) = fun k => if k = id then none else mfind m k := funext h2
    simp only [ddStep, ddErase]
    rw [this]; exact .erase _ _
  | get id =>
    simp only [ddStep, ddGet]
    cases h : mfind m id with
    | none => exact ⟨hm, .getThrow _ _ h⟩
    | some v => exact ⟨hm, .getOk _ _ _ h⟩
  | hasKey id => exact ⟨hm, .hasKey _ _⟩
  | getIds => exact ⟨hm, .getIds _ _ (dd_isIdList m hm)⟩
  | count =>
    refine ⟨hm, ?_⟩
    have := DDSpec.count (mfind m) _ (dd_isIdList m hm)
    simpa [ddStep, ddCount] using this
  | isEmpty =>
    refine ⟨hm, .isEmpty _ _ ?_⟩
    cases m with
    | nil => simp [ddIsEmpty, mfind]
    | cons kv m =>
      simp only [ddIsEmpty, List.isEmpty_cons, Bool.false_eq_true, false_iff, not_forall]
      exact ⟨kv.1, by simp [mfind]⟩
  | reset =>
    refine ⟨by simp [ddStep, ddReset, MapOk], ?_⟩
    have : (mfind (ddReset m)) = fun _ => none := rfl
    simp only [ddStep]; rw [this]; exact .reset _

theorem dd_run {V : Type} (ops : List (DDOp V)) : ∀ m : List (Nat × V), MapOk m → DDSpecRun (mfind m) ops (ddRun m ops).1 := by
  induction ops with
  | nil => intro m _; exact .nil _
  | cons op ops ih =>
    intro m hm
    obtain ⟨h1, h2⟩ := dd_step m hm op
    exact .cons _ _ _ _ _ _ h2 (ih _ h1)

/-- C21: over every history of operations starting from an empty container, `DistributedData` shows exactly what a finite map
would show (`DDSpec`), including which calls throw and that a throwing call changes nothing. -/
theorem C21_distributed_data_is_finite_map {V : Type} (ops : List (DDOp V)) :
    DDSpecRun (fun _ => none) ops (ddRun [] ops).1 :=
  dd_run ops [] (by simp [MapOk])

theorem ddMap_aux {V W : Type} (f : Nat → V → W) (m : List (Nat × V)) (hm : MapOk m) :
    ∀ acc : List (Nat × W), (∀ a ∈ acc, ∀ b ∈ m, a.1 < b.1) →
    m.foldl (ddMapStep f) (some acc) = some (acc ++ m.map fun kv => (kv.1, f kv.1 kv.2)) := by
  induction m with
  | nil => intro acc _; simp
  | cons kv m ih =>
    intro acc hacc
    have hm' := List.pairwise_cons.1 hm
    have happ : ∀ acc : List (Nat × W), (∀ a ∈ acc, a.1 < kv.1) → ∀ x, memplace acc kv.1 x = (acc ++ [(kv.1, x)], true) := by
      intro acc
      induction acc with
      | nil => intro _ x; rfl
      | cons a acc iha =>
        intro h x
        have h0 := h a (by simp)
        have := iha (fun b hb => h b (List.mem_cons_of_mem _ hb)) x
        obtain ⟨ak, av⟩ := a
        simp only at h0
        simp only [memplace]
        rw [if_neg (by omega), if_neg (by omega), this]; rfl
    have hh := happ acc (fun a ha => hacc a ha kv (by simp)) (f kv.1 kv.2)
    have hst : ddMapStep f (some acc) kv = some (acc ++ [(kv.1, f kv.1 kv.2)]) := by
      simp [ddMapStep, ddAddObj, hh]
    rw [List.foldl_cons, hst, ih hm'.2]
    · simp
    · intro a ha b hb
      rcases List.mem_append.1 ha with ha | ha
      · exact hacc a ha b (List.mem_cons_of_mem _ hb)
      · simp only [List.mem_singleton] at ha; subst ha; exact hm'.1 b hb

/-- C21: `map` never throws, keeps every id and applies the function to the object of that id (for every container content
reachable by a history, i.e. strictly increasing keys). -/
theorem C21_distributed_data_map {V W : Type} (f : Nat → V → W) (ops : List (DDOp V)) :
    ∃ r, ddMap f (ddRun [] ops).2 = some r ∧ ∀ k, mfind r k = (mfind (ddRun [] ops).2 k).map (f k) := by
  have hok : ∀ (ops : List (DDOp V)) m, MapOk m → MapOk (ddRun m ops).2 := by
    intro ops
    induction ops with
    | nil => intro m h; exact h
    | cons op ops ih => intro m h; exact ih _ (dd_step m h op).1
  generalize hm : (ddRun [] ops).2 = m
  have hmok : MapOk m := hm ▸ hok ops [] (by simp [MapOk])
  refine ⟨_, by rw [ddMap, ddMap_aux f m hmok [] (by simp)], fun k => ?_⟩
  simp only [List.nil_append]
  clear hm hok hmok
  induction m with
  | nil => rfl
  | cons kv m ih =>
    simp only [List.map_cons, mfind]
    by_cases h : kv.1 = k
    · subst h; simp
    · simp [h, ih]

example : (ddRun ([] : List (Nat × String)) [.add 5 "a", .add 2 "b", .add 5 "c", .get 5, .getIds, .erase 5, .get 5]).2 = [(2, "b")] :=
  by decide

/-! ### C22 tranfer_all -/

theorem mmEmplace_perm {V : Type} (m : List ((Nat × Nat) × V)) (x) : (mmEmplace m x).Perm (x :: m) := by
  induction m with
  | nil => exact List.Perm.refl _
  | cons y m ih =>
    simp only [mmEmplace]
    split
    · exact List.Perm.refl _
    · exact (List.Perm.cons y ih).trans (List.Perm.swap x y m)

/-- Multimap representation invariant: keys non decreasing. -/
def MMOk {V : Type} (m : List ((Nat × Nat) × V)) : Prop := m.Pairwise (fun a b => pairLt b.1 a.1 = false)

theorem pairLt_asymm {a b : Nat × Nat} (h : pairLt a b = true) : pairLt b a = false := by
  simp [pairLt] at *; omega

theorem pairLt_trans' {a b c : Nat × Nat} (h1 : pairLt b a = false) (h2 : pairLt c b = false) : pairLt c a = false := by
  simp [pairLt] at *; omega

theorem mmEmplace_ok {V : Type} (m : List ((Nat × Nat) × V)) (x) (h : MMOk m) : MMOk (mmEmplace m x) := by
  induction m with
  | nil => simp [mmEmplace, MMOk]
  | cons y m ih =>
    have h' := List.pairwise_cons.1 h
    simp only [mmEmplace]
    split
    · next hlt =>
      refine List.pairwise_cons.2 ⟨fun z hz => ?_, h⟩
      rcases List.mem_cons.1 hz with rfl | hz
      · exact pairLt_asymm hlt
      · exact pairLt_trans' (pairLt_asymm hlt) (h'.1 z hz)
    · next hlt =>
      refine List.pairwise_cons.2 ⟨fun z hz => ?_, ih h'.2⟩
      rcases List.mem_cons.1 ((mmEmplace_perm m x).mem_iff.1 hz) with rfl | hz
      · simpa using hlt
      · exact h'.1 z hz

/-- The entries of each key are the same, in the same order. -/
def KeyEq {V : Type} (l l' : List ((Nat × Nat) × V)) : Prop := ∀ k : Nat × Nat, l.filter (fun e => decide (e.1 = k)) = l'.filter (fun e => decide (e.1 = k))

theorem KeyEq.refl {V : Type} (l : List ((Nat × Nat) × V)) : KeyEq l l := fun _ => rfl

theorem KeyEq.trans {V : Type} {a b c : List ((Nat × Nat) × V)} (h : KeyEq a b) (h' : KeyEq b c) : KeyEq a c := fun k => (h k).trans (h' k)

theorem KeyEq.symm {V : Type} {a b : List ((Nat × Nat) × V)} (h : KeyEq a b) : KeyEq b a := fun k => (h k).symm

theorem KeyEq.append {V : Type} {a b c d : List ((Nat × Nat) × V)} (h : KeyEq a b) (h' : KeyEq c d) : KeyEq (a ++ c) (b ++ d) := fun k => by
  rw [List.filter_append, List.filter_append, h k, h' k]

theorem KeyEq.map {V U : Type} (f : V → U) {a b : List ((Nat × Nat) × V)} (h : KeyEq a b) :
    KeyEq (a.map fun e => (e.1, f e.2)) (b.map fun e => (e.1, f e.2)) := fun k => by
  rw [List.filter_map, List.filter_map]
  show (a.filter fun e => decide (e.1 = k)).map _ = (b.filter fun e => decide (e.1 = k)).map _
  rw [h k]

theorem KeyEq.filter {V : Type} (p : Nat × Nat → Bool) {a b : List ((Nat × Nat) × V)} (h : KeyEq a b) :
    KeyEq (a.filter fun e => p e.1) (b.filter fun e => p e.1) := fun k => by
  have := congrArg (List.filter fun e : (Nat × Nat) × V => p e.1) (h k)
  rw [List.filter_filter, List.filter_filter] at this
  rw [List.filter_filter, List.filter_filter]
  have hc : (fun e : (Nat × Nat) × V => decide (e.1 = k) && p e.1) = fun e => p e.1 && decide (e.1 = k) := by funext e; exact Bool.and_comm _ _
  rw [hc]; exact this

theorem pairLt_irrefl (a : Nat × Nat) : pairLt a a = false := by simp [pairLt]

/-- A new element comes after those with the same key. -/
theorem mmEmplace_keyEq {V : Type} (m : List ((Nat × Nat) × V)) (x) (h : MMOk m) : KeyEq (mmEmplace m x) (m ++ [x]) := by
  intro k
  induction m with
  | nil => rfl
  | cons y m ih =>
    have h' := List.pairwise_cons.1 h
    simp only [mmEmplace]
    split
    · next hlt =>
      by_cases hk : x.1 = k
      · have hn : (y :: m).filter (fun e => decide (e.1 = k)) = [] := by
          rw [List.filter_eq_nil_iff]
          intro z hz hzk
          have hzk' : z.1 = x.1 := by rw [hk]; simpa using hzk
          rcases List.mem_cons.1 hz with rfl | hz
          · rw [hzk', pairLt_irrefl] at hlt; cases hlt
          · have h1 := h'.1 z hz
            rw [hzk', hlt] at h1; cases h1
        rw [List.filter_append, hn, List.filter_cons, hn]; simp [hk]
      · rw [List.filter_append]; simp [hk]
    · rw [List.cons_append, List.filter_cons, List.filter_cons, ih h'.2]

/-- Two containers in multimap order with the same entries per key in the same order are equal. -/
theorem keyEq_eq {V : Type} : ∀ (a b : List ((Nat × Nat) × V)), MMOk a → MMOk b → KeyEq a b → a = b := by
  intro a
  induction a with
  | nil =>
    intro b _ _ h
    cases b with
    | nil => rfl
    | cons y b => have := h y.1; simp at this
  | cons x a ih =>
    intro b ha hb h
    cases b with
    | nil => have := h x.1; simp at this
    | cons y b =>
      have ha' := List.pairwise_cons.1 ha
      have hb' := List.pairwise_cons.1 hb
      have hxy : x.1 = y.1 := by
        have h1 : x ∈ (y :: b).filter (fun e => decide (e.1 = x.1)) := by rw [← h x.1]; simp
        have h2 : y ∈ (x :: a).filter (fun e => decide (e.1 = y.1)) := by rw [h y.1]; simp
        have h3 := (List.mem_filter.1 h1).1
        have h4 := (List.mem_filter.1 h2).1
        have f3 : pairLt x.1 y.1 = false := by
          rcases List.mem_cons.1 h3 with e | e
          · rw [e, pairLt_irrefl]
          · exact hb'.1 x e
        have f4 : pairLt y.1 x.1 = false := by
          rcases List.mem_cons.1 h4 with e | e
          · rw [e, pairLt_irrefl]
          · exact ha'.1 y e
        have e1 : x.1 = (x.1.1, x.1.2) := rfl
        generalize x.1 = p at *
        generalize y.1 = q at *
        obtain ⟨p1, p2⟩ := p
        obtain ⟨q1, q2⟩ := q
        simp [pairLt] at f3 f4
        simp only [Prod.mk.injEq]; omega
      have hk := h x.1
      simp only [List.filter_cons, decide_true, if_true, hxy] at hk
      obtain ⟨e1, -⟩ := List.cons.inj hk
      subst e1
      rw [ih b ha'.2 hb'.2 (fun k => by
        have := h k
        simp only [List.filter_cons] at this
        split at this
        · exact (List.cons.inj this).2
        · exact this)]

theorem transfer_aux {V : Type} (sel : Nat × Nat → Bool) (post : List ((Nat × Nat) × V)) :
    ∀ (pre other : List ((Nat × Nat) × V)), (∀ x ∈ pre, sel x.1 = false) → MMOk other →
    ∃ o', ((post.filter fun kv => sel kv.1).map Prod.fst).foldl ddsTransferStep (pre ++ post, other) =
      (pre ++ post.filter (fun kv => !sel kv.1), o') ∧ o'.Perm (other ++ post.filter fun kv => sel kv.1) ∧ MMOk o' ∧
      KeyEq o' (other ++ post.filter fun kv => sel kv.1) := by
  induction post with
  | nil => intro pre other _ hok; exact ⟨other, by simp, by simp, hok, by simp [KeyEq]⟩
  | cons y post ih =>
    intro pre other hpre hok
    cases hy : sel y.1 with
    | true =>
      have hext : ∀ pre : List ((Nat × Nat) × V), (∀ x ∈ pre, sel x.1 = false) →
          mmExtract (pre ++ y :: post) y.1 = (pre ++ post, some y) := by
        intro pre
        induction pre with
        | nil => intro _; simp [mmExtract]
        | cons z pre ihp =>
          intro h
          have hz : z.1 ≠ y.1 := by
            intro e; have := h z (by simp); rw [e, hy] at this; cases this
          simp only [List.cons_append, mmExtract]
          rw [if_neg hz, ihp fun x hx => h x (List.mem_cons_of_mem _ hx)]
      obtain ⟨o', h1, h2, h3, h4⟩ := ih pre (mmEmplace other y) hpre (mmEmplace_ok _ _ hok)
      refine ⟨o', ?_, ?_, h3, ?_⟩
      · simp only [List.filter_cons, hy, if_true, List.map_cons, List.foldl_cons, ddsTransferStep, hext pre hpre]
        rw [h1]; simp
      · refine h2.trans ?_
        simp only [List.filter_cons, hy, if_true]
        exact ((mmEmplace_perm other y).append_right _).trans (by
          simpa using (List.perm_middle (l₁ := other) (a := y)).symm)
      · refine h4.trans ?_
        simp only [List.filter_cons, hy, if_true]
        have := KeyEq.append (mmEmplace_keyEq other y hok) (KeyEq.refl (post.filter fun kv => sel kv.1))
        simpa using this
    | false =>
      obtain ⟨o', h1, h2, h3, h4⟩ := ih (pre ++ [y]) other (by
        intro x hx; rcases List.mem_append.1 hx with hx | hx
        · exact hpre x hx
        · simp at hx; subst hx; exact hy) hok
      refine ⟨o', ?_, ?_, h3, ?_⟩
      · simp only [List.filter_cons, hy, Bool.false_eq_true, if_false, Bool.not_false, if_true]
        simpa using h1
      · simpa [List.filter_cons, hy] using h2
      · simpa [List.filter_cons, hy] using h4

/-- C22: `tranfer_all` leaves in the source exactly the unselected entries (in order) and the destination receives exactly the
selected ones with their keys, values and multiplicities, on top of what it held; it stays a valid multimap. -/
theorem C22_transfer_all {V : Type} (cd : Nat → Nat → Bool) (data other : List ((Nat × Nat) × V)) (ho : MMOk other) :
    (ddsTransferAll cd data other).1 = data.filter (fun kv => !cd kv.1.1 kv.1.2) ∧
    (ddsTransferAll cd data other).2.Perm (other ++ data.filter (fun kv => cd kv.1.1 kv.1.2)) ∧
    MMOk (ddsTransferAll cd data other).2 := by
  obtain ⟨o', h1, h2, h3, -⟩ := transfer_aux (fun k => cd k.1 k.2) data [] other (by simp) ho
  simp only [ddsTransferAll]
  simp only [List.nil_append] at h1
  rw [h1]; exact ⟨rfl, h2, h3⟩

/-- C22: entries with equal keys keep their order; those transferred come after those the destination already held. -/
theorem C22_transfer_order {V : Type} (cd : Nat → Nat → Bool) (data other : List ((Nat × Nat) × V)) (ho : MMOk other) :
    ∀ k : Nat × Nat, (ddsTransferAll cd data other).2.filter (fun e => decide (e.1 = k)) =
      other.filter (fun e => decide (e.1 = k)) ++ (data.filter fun kv => cd kv.1.1 kv.1.2).filter (fun e => decide (e.1 = k)) := by
  obtain ⟨o', h1, -, -, h4⟩ := transfer_aux (fun k => cd k.1 k.2) data [] other (by simp) ho
  simp only [ddsTransferAll]
  simp only [List.nil_append] at h1
  rw [h1]
  intro k
  rw [← List.filter_append]
  exact h4 k

/-- C22: nothing is lost or duplicated: the union of the two containers is unchanged as a multiset. -/
theorem C22_transfer_conserves {V : Type} (cd : Nat → Nat → Bool) (data other : List ((Nat × Nat) × V)) (ho : MMOk other) :
    ((ddsTransferAll cd data other).1 ++ (ddsTransferAll cd data other).2).Perm (data ++ other) := by
  obtain ⟨h1, h2, _⟩ := C22_transfer_all cd data other ho
  rw [h1]
  refine (List.Perm.append_left _ h2).trans ?_
  have := List.filter_append_perm (fun kv : (Nat × Nat) × V => cd kv.1.1 kv.1.2) data
  calc _ = List.filter (fun kv => !cd kv.1.1 kv.1.2) data ++ (other ++ List.filter (fun kv => cd kv.1.1 kv.1.2) data) := rfl
    List.Perm _ (List.filter (fun kv => !cd kv.1.1 kv.1.2) data ++ (List.filter (fun kv => cd kv.1.1 kv.1.2) data ++ other)) :=
      List.Perm.append_left _ List.perm_append_comm
    List.Perm _ ((List.filter (fun kv => cd kv.1.1 kv.1.2) data ++ List.filter (fun kv => !cd kv.1.1 kv.1.2) data) ++ other) := by
      rw [← List.append_assoc]; exact List.Perm.append_right _ List.perm_append_comm
    List.Perm _ (data ++ other) := List.Perm.append_right _ this

example : ddsTransferAll (fun l _ => l == 1) [((1, 2), 'a'), ((1, 2), 'b'), ((2, 1), 'c')] [((1, 2), 'z')]
    = ([((2, 1), 'c')], [((1, 2), 'z'), ((1, 2), 'a'), ((1, 2), 'b')]) := by decide

/-! ### C23 id set difference -/

theorem sinsert_mem (s : List Nat) (q k : Nat) : k ∈ sinsert s q ↔ k = q ∨ k ∈ s := by
  induction s with
  | nil => simp [sinsert]
  | cons a s ih =>
    simp only [sinsert]
    split
    · simp
    · split
      · next h => subst h; simp
      · simp [ih]; tauto

theorem sinsert_sorted (s : List Nat) (q : Nat) (h : s.Pairwise (· < ·)) : (sinsert s q).Pairwise (· < ·) := by
  induction s with
  | nil => simp [sinsert]
  | cons a s ih =>
    have h' := List.pairwise_cons.1 h
    simp only [sinsert]
    split
    · next hlt =>
      refine List.pairwise_cons.2 ⟨fun z hz => ?_, h⟩
      rcases List.mem_cons.1 hz with rfl | hz
      · exact hlt
      · have := h'.1 z hz; omega
    · split
      · exact h
      · refine List.pairwise_cons.2 ⟨fun z hz => ?_, ih h'.2⟩
        rcases (sinsert_mem s q z).1 hz with rfl | hz
        · omega
        · exact h'.1 z hz

theorem foldl_sinsert (c : List Nat) : ∀ s : List Nat, s.Pairwise (· < ·) →
    (c.foldl sinsert s).Pairwise (· < ·) ∧ ∀ k, k ∈ c.foldl sinsert s ↔ k ∈ c ∨ k ∈ s := by
  induction c with
  | nil => intro s h; exact ⟨h, by simp⟩
  | cons a c ih =>
    intro s h
    obtain ⟨h1, h2⟩ := ih _ (sinsert_sorted s a h)
    refine ⟨h1, fun k => ?_⟩
    simp only [List.foldl_cons, h2, sinsert_mem, List.mem_cons]; tauto

theorem setDiff_loop (ref : List Nat) (href : ref.Nodup) : ∀ (s ms mt : List Nat), s.Pairwise (· < ·) →
    ref.foldl setDiffStep (s, ms, mt) =
      (s.filter (fun k => decide (k ∉ ref)), ms ++ ref.filter (fun k => decide (k ∉ s)), mt ++ ref.filter (fun k => decide (k ∈ s))) := by
  induction ref with
  | nil => intro s ms mt _; simp
  | cons a ref ih =>
    intro s ms mt hs
    have hr := List.nodup_cons.1 href
    have hnd : s.Nodup := hs.imp (fun h => Nat.ne_of_lt h)
    have he : (s.erase a).Pairwise (· < ·) := hs.sublist List.erase_sublist
    have hmem : ∀ k, k ∈ s.erase a ↔ k ≠ a ∧ k ∈ s := fun k => hnd.mem_erase_iff
    have hf1 : (s.erase a).filter (fun k => decide (k ∉ ref)) = s.filter (fun k => decide (k ∉ a :: ref)) := by
      rw [hnd.erase_eq_filter, List.filter_filter]
      apply List.filter_congr
      intro k _
      rw [Bool.eq_iff_iff]; simp; tauto
    have hf2 : ref.filter (fun k => decide (k ∉ s.erase a)) = ref.filter (fun k => decide (k ∉ s)) := by
      apply List.filter_congr
      intro k hk
      have : k ≠ a := fun e => hr.1 (e ▸ hk)
      simp [hmem, this]
    have hf3 : ref.filter (fun k => decide (k ∈ s.erase a)) = ref.filter (fun k => decide (k ∈ s)) := by
      apply List.filter_congr
      intro k hk
      have : k ≠ a := fun e => hr.1 (e ▸ hk)
      simp [hmem, this]
    simp only [List.foldl_cons, setDiffStep]
    by_cases h : a ∈ s
    · rw [if_pos h, ih hr.2 _ _ _ he, hf1, hf2, hf3]
      simp [h]
    · rw [if_neg h, ih hr.2 _ _ _ he, hf1, hf2, hf3]
      simp [h]

/-- C23: `set_diff` against a duplicate free reference: missing / matching are the reference ids absent / present in the
container, in reference order, and extra lists increasingly the container ids absent from the reference. -/
theorem C23_set_diff (c1 ref : List Nat) (href : ref.Nodup) :
    (setDiff c1 ref).1 = ref.filter (fun k => decide (k ∉ c1)) ∧
    (setDiff c1 ref).2.1 = ref.filter (fun k => decide (k ∈ c1)) ∧
    (setDiff c1 ref).2.2.Pairwise (· < ·) ∧ ∀ k, k ∈ (setDiff c1 ref).2.2 ↔ k ∈ c1 ∧ k ∉ ref := by
  obtain ⟨h1, h2⟩ := foldl_sinsert c1 [] (by simp)
  have := setDiff_loop ref href (c1.foldl sinsert []) [] [] h1
  simp only [setDiff, this, List.nil_append]
  refine ⟨?_, ?_, h1.sublist List.filter_sublist, fun k => ?_⟩
  · apply List.filter_congr; intro k _; simp [h2]
  · apply List.filter_congr; intro k _; simp [h2]
  · simp [h2]

/-- C23 (`_partial`: only for ids below 2^32): the three callbacks of `on_distributeddata_diff` are called exactly on the ids only in
the reference, in both, and only in the container. The full property asks for all u64 ids; see the defect below. -/
theorem C23_dd_diff_partial {V W : Type} (dd : List (Nat × V)) (reference : List (Nat × W))
    (h2 : MapOk reference) (b1 : ∀ kv ∈ dd, kv.1 < 2 ^ 32) (b2 : ∀ kv ∈ reference, kv.1 < 2 ^ 32) :
    let r := onDDDiff dd reference
    r.1 = (ddGetIds reference).filter (fun k => decide (k ∉ ddGetIds dd)) ∧
    r.2.1 = (ddGetIds reference).filter (fun k => decide (k ∈ ddGetIds dd)) ∧
    r.2.2.Pairwise (· < ·) ∧ ∀ k, k ∈ r.2.2 ↔ k ∈ ddGetIds dd ∧ k ∉ ddGetIds reference := by
  have e1 : (dd.map fun kv => kv.1 % 2 ^ 32) = ddGetIds dd :=
    List.map_congr_left fun kv h => Nat.mod_eq_of_lt (b1 kv h)
  have e2 : (reference.map fun kv => kv.1 % 2 ^ 32) = ddGetIds reference :=
    List.map_congr_left fun kv h => Nat.mod_eq_of_lt (b2 kv h)
  simp only [onDDDiff, onDDIdsDiff, e1, e2]
  apply C23_set_diff
  exact (List.pairwise_map.2 h2).imp (fun h => Nat.ne_of_lt h)

example : onDDDiff [(1, 'a'), (3, 'b'), (7, 'c')] [(2, 'x'), (3, 'y')] = ([2], [3], [1, 7]) := by decide

/-- C23 (defect): ids at or above 2^32 are truncated by the `u32 id` lambda parameter: a container holding only id 2^32+5,
compared with an empty reference, reports id 5 as extra; compared with a reference holding id 5 it reports a match. -/
theorem C23_dd_diff_defect :
    onDDDiff [(2 ^ 32 + 5, 'a')] ([] : List (Nat × Char)) = ([], [], [5]) ∧
    onDDDiff [(2 ^ 32 + 5, 'a')] [(5, 'b')] = ([], [5], []) := by decide

/-- C23 (defect): in `on_distributeddata_ids_diff` a duplicated reference id present in the container is reported both as
matching and as missing. -/
theorem C23_ids_diff_duplicate_defect : onDDIdsDiff [(5, 'a')] [5, 5] = ([5], [5], []) := by decide

/-! ### C16 dynamic ids -/

/-- Invariant of the id generator. `order` is the list of groups in arrival order. -/
structure DynInv (M gs G : Nat) (s : DynIdState) (order : List Nat) : Prop where
  nodup : order.Nodup
  lt : ∀ g ∈ order, g < G
  counter : s.counter = order.length % M
  loc : ∀ g d, s.loc g = some d ↔ order[d]? = some g
  out : ∀ g l d, s.out g l = some d → l < gs ∧ ∃ i, order[i]? = some g ∧ d = (i * gs + l) % M

/-- The groups that executed `fetch_add`, in order (specification helper: read off the schedule). -/
def arrivals : List DynIdAct → List Nat
  | [] => []
  | .main g :: as => g :: arrivals as
  | .read _ _ :: as => arrivals as

theorem length_le_of_nodup_lt {l : List Nat} {G : Nat} (h : l.Nodup) (hl : ∀ g ∈ l, g < G) : l.length ≤ G := by
  have : l.toFinset ⊆ Finset.range G := fun g hg => by simp at hg ⊢; exact hl g hg
  have := Finset.card_le_card this
  rwa [List.toFinset_card_of_nodup h, Finset.card_range] at this

theorem dyn_run {M gs G : Nat} (hM : G < M) (acts : List DynIdAct) : ∀ (s s' : DynIdState) (order : List Nat),
    DynInv M gs G s order → s.run M gs G acts = some s' → DynInv M gs G s' (order ++ arrivals acts) := by
  induction acts with
  | nil =>
    intro s s' order h hr
    simp only [DynIdState.run, Option.some.injEq] at hr; subst hr
    simpa [arrivals] using h
  | cons a as ih =>
    intro s s' order h hr
    simp only [DynIdState.run] at hr
    split at hr
    · cases hr
    · next s1 hs =>
      cases a with
      | main g =>
        simp only [DynIdState.step] at hs
        split at hs
        · next hg =>
          simp only [Option.some.injEq] at hs
          have hnotin : g ∉ order := by
            intro hm
            obtain ⟨d, hd, he⟩ := List.mem_iff_getElem.1 hm
            have := (h.loc g d).2 (by rw [List.getElem?_eq_getElem hd, he])
            rw [hg.2] at this; cases this
          have hlen : order.length < G := by
            have := length_le_of_nodup_lt (l := g :: order) (G := G) (List.nodup_cons.2 ⟨hnotin, h.nodup⟩) (by
              intro x hx; rcases List.mem_cons.1 hx with rfl | hx
              · exact hg.1
              · exact h.lt x hx)
            simp at this; omega
          have hc : s.counter = order.length := by rw [h.counter, Nat.mod_eq_of_lt (by omega)]
          have hinv : DynInv M gs G s1 (order ++ [g]) := by
            subst hs
            refine ⟨?_, ?_, ?_, ?_, ?_⟩
            · rw [List.nodup_append]
              exact ⟨h.nodup, by simp, by
                intro x hx y hy; simp at hy; subst hy; rintro rfl; exact hnotin hx⟩
            · intro x hx
              rcases List.mem_append.1 hx with hx | hx
              · exact h.lt x hx
              · simp at hx; subst hx; exact hg.1
            · simp [hc]
            · intro x d
              simp only
              by_cases hx : x = g
              · subst hx
                rw [if_pos rfl, hc]
                constructor
                · intro e; simp only [Option.some.injEq] at e; subst e; simp
                · intro e
                  rcases Nat.lt_trichotomy d order.length with hd | hd | hd
                  · rw [List.getElem?_append_left hd] at e
                    exact absurd (List.mem_of_getElem? e) hnotin
                  · rw [hd]
                  · rw [List.getElem?_eq_none (by simp; omega)] at e; cases e
              · rw [if_neg hx, h.loc]
                constructor
                · intro e
                  have hd : d < order.length := (List.getElem?_eq_some_iff.1 e).1
                  rw [List.getElem?_append_left hd]; exact e
                · intro e
                  rcases Nat.lt_trichotomy d order.length with hd | hd | hd
                  · rwa [List.getElem?_append_left hd] at e
                  · subst hd; simp at e; exact absurd e.symm hx
                  · rw [List.getElem?_eq_none (by simp; omega)] at e; cases e
            · intro x l d ho
              obtain ⟨h1, i, h2, h3⟩ := h.out x l d ho
              have hd : i < order.length := (List.getElem?_eq_some_iff.1 h2).1
              exact ⟨h1, i, by rw [List.getElem?_append_left hd]; exact h2, h3⟩
          have := ih s1 s' (order ++ [g]) hinv hr
          simpa [arrivals] using this
        · cases hs
      | read g l =>
        simp only [DynIdState.step] at hs
        split at hs
        · cases hs
        · next d hd =>
          split at hs
          · next hl =>
            simp only [Option.some.injEq] at hs
            have hinv : DynInv M gs G s1 order := by
              subst hs
              refine ⟨h.nodup, h.lt, h.counter, h.loc, ?_⟩
              intro x l' e ho
              simp only at ho
              split at ho
              · next hx =>
                obtain ⟨rfl, rfl⟩ := hx
                simp only [Option.some.injEq] at ho
                exact ⟨hl, d, (h.loc _ d).1 hd, ho.symm⟩
              · exact h.out x l' e ho
            have := ih s1 s' order hinv hr
            simpa [arrivals] using this
          · cases hs

theorem dyn_init (M gs G : Nat) : DynInv M gs G DynIdState.init [] :=
  ⟨by simp, by simp, by simp [DynIdState.init], by simp [DynIdState.init], by simp [DynIdState.init]⟩

/-- C16: under every schedule, the i-th group to execute its `fetch_add` gets dynamic group id `i` (so the ids handed out so
far are gap free and a group only ever sees smaller ids belonging to groups that already started), and its work item `l` gets
global id `i * group_size + l`. -/
theorem C16_dynamic_id_by_arrival {M gs G : Nat} (hM : G < M) (hMg : G * gs ≤ M) (acts : List DynIdAct) (s : DynIdState)
    (h : DynIdState.init.run M gs G acts = some s) :
    (∀ g i, s.loc g = some i ↔ (arrivals acts)[i]? = some g) ∧
    (∀ g l d, s.out g l = some d → l < gs ∧ ∃ i, s.loc g = some i ∧ d = i * gs + l) := by
  have hi := dyn_run hM acts _ _ _ (dyn_init M gs G) h
  simp only [List.nil_append] at hi
  refine ⟨hi.loc, fun g l d ho => ?_⟩
  obtain ⟨h1, i, h2, h3⟩ := hi.out g l d ho
  refine ⟨h1, i, (hi.loc g i).2 h2, ?_⟩
  have hlen : i < (arrivals acts).length := (List.getElem?_eq_some_iff.1 h2).1
  have hlen2 := length_le_of_nodup_lt hi.nodup hi.lt
  rw [h3, Nat.mod_eq_of_lt]
  have : (i + 1) * gs ≤ G * gs := Nat.mul_le_mul_right _ (by omega)
  have e : (i + 1) * gs = i * gs + gs := by ring
  omega

/-- C16: once every work item of the kernel has its id, the global ids are a permutation of `0 .. G*gs-1`: every number is the id
of exactly one work item. -/
theorem C16_dynamic_id_bijective {M gs G : Nat} (hM : G < M) (hMg : G * gs ≤ M) (acts : List DynIdAct) (s : DynIdState)
    (h : DynIdState.init.run M gs G acts = some s) (hall : ∀ g l, g < G → l < gs → s.out g l ≠ none) :
    (∀ g l d, s.out g l = some d → d < G * gs) ∧
    (∀ d, d < G * gs → ∃ g l, g < G ∧ l < gs ∧ s.out g l = some d) ∧
    (∀ g l g' l' d, s.out g l = some d → s.out g' l' = some d → g = g' ∧ l = l') := by
  obtain ⟨h1, h2⟩ := C16_dynamic_id_by_arrival hM hMg acts s h
  have hi := dyn_run hM acts _ _ _ (dyn_init M gs G) h
  simp only [List.nil_append] at hi
  have hlen2 := length_le_of_nodup_lt hi.nodup hi.lt
  refine ⟨fun g l d ho => ?_, fun d hd => ?_, fun g l g' l' d ho ho' => ?_⟩
  · obtain ⟨hl, i, h3, rfl⟩ := h2 g l d ho
    have hlen : i < (arrivals acts).length := (List.getElem?_eq_some_iff.1 ((h1 g i).1 h3)).1
    have : (i + 1) * gs ≤ G * gs := Nat.mul_le_mul_right _ (by omega)
    have e : (i + 1) * gs = i * gs + gs := by ring
    omega
  · have hgs : 0 < gs := by
      rcases Nat.eq_zero_or_pos gs with h0 | h0
      · simp [h0] at hd
      · exact h0
    -- every group arrived
    have hfull : ∀ g, g < G → g ∈ arrivals acts := by
      intro g hg
      cases ho : s.out g 0 with
      | none => exact absurd ho (hall g 0 hg hgs)
      | some d =>
        obtain ⟨_, i, h3, _⟩ := h2 g 0 d ho
        exact List.mem_of_getElem? ((h1 g i).1 h3)
    have hlen : (arrivals acts).length = G := by
      apply le_antisymm hlen2
      have : Finset.range G ⊆ (arrivals acts).toFinset := fun g hg => by simp at hg ⊢; exact hfull g hg
      have := Finset.card_le_card this
      rwa [List.toFinset_card_of_nodup hi.nodup, Finset.card_range] at this
    have hq : d / gs < G := Nat.div_lt_of_lt_mul (by rw [Nat.mul_comm]; exact hd)
    have hq' : d / gs < (arrivals acts).length := by omega
    have hg := (h1 ((arrivals acts)[d / gs]) (d / gs)).2 (List.getElem?_eq_getElem hq')
    have hgl := hi.lt _ (List.getElem_mem hq')
    have hr := Nat.mod_lt d hgs
    refine ⟨(arrivals acts)[d / gs], d % gs, hgl, hr, ?_⟩
    cases ho : s.out ((arrivals acts)[d / gs]) (d % gs) with
    | none => exact absurd ho (hall _ _ hgl hr)
    | some e =>
      obtain ⟨_, i, h3, rfl⟩ := h2 _ _ _ ho
      rw [hg] at h3; simp only [Option.some.injEq] at h3; subst h3
      rw [Nat.mul_comm, Nat.div_add_mod]
  · obtain ⟨hl, i, h3, e1⟩ := h2 g l d ho
    obtain ⟨hl', i', h3', e2⟩ := h2 g' l' d ho'
    have hgs : 0 < gs := by omega
    have e : i = i' ∧ l = l' := by
      have a1 : (i * gs + l) / gs = i := by
        rw [Nat.add_comm, Nat.add_mul_div_right _ _ hgs, Nat.div_eq_of_lt hl, Nat.zero_add]
      have a2 : (i' * gs + l') / gs = i' := by
        rw [Nat.add_comm, Nat.add_mul_div_right _ _ hgs, Nat.div_eq_of_lt hl', Nat.zero_add]
      rw [e1] at e2
      have : i = i' := by rw [← a1, e2, a2]
      subst this
      exact ⟨rfl, by omega⟩
    obtain ⟨rfl, rfl⟩ := e
    have := ((h1 g i).1 h3).symm.trans ((h1 g' i).1 h3')
    simp only [Option.some.injEq] at this
    exact ⟨this, rfl⟩

/-- A schedule with 2 groups of 2 items meeting the hypotheses of the theorems above: group 1 arrives first. -/
example : ∃ s, DynIdState.init.run (2 ^ 32) 2 2 [.main 1, .read 1 1, .main 0, .read 0 0, .read 1 0, .read 0 1] = some s ∧
    s.out 1 0 = some 0 ∧ s.out 1 1 = some 1 ∧ s.out 0 0 = some 2 ∧ s.out 0 1 = some 3 := ⟨_, rfl, by decide⟩

/-- C16: objects that are default constructed get pairwise distinct uuids as long as fewer than 2^w are created. -/
theorem C16_uuid_distinct (M : Nat) (evs : List UuidEv) (hc : ∀ e ∈ evs, e = .construct) (hM : evs.length ≤ M) :
    (uuidRun M evs).2.Nodup ∧ (uuidRun M evs).2.length = evs.length := by
  have key : ∀ (evs : List UuidEv) (n : Nat), (∀ e ∈ evs, e = .construct) → n + evs.length ≤ M →
      (evs.foldl (uuidStep M) (n % M, List.range n)).2 = List.range (n + evs.length) := by
    intro evs
    induction evs with
    | nil => intro n _ _; simp
    | cons e evs ih =>
      intro n he hn
      have : e = .construct := he e (by simp)
      subst this
      simp only [List.length_cons] at hn
      have hmod : n % M = n := Nat.mod_eq_of_lt (by omega)
      have hstep : uuidStep M (n % M, List.range n) .construct = ((n + 1) % M, List.range (n + 1)) := by
        simp [uuidStep, hmod, List.range_succ]
      rw [List.foldl_cons, hstep, ih (n + 1) (fun e h => he e (List.mem_cons_of_mem _ h)) (by omega)]
      congr 1
      simp; omega
  have := key evs 0 hc (by simpa using hM)
  simp only [List.range_zero, Nat.zero_mod, Nat.zero_add] at this
  simp only [uuidRun, this]
  exact ⟨List.nodup_range, by simp⟩

example : (uuidRun 256 [.construct, .construct, .construct]).2 = [0, 1, 2] := by decide

/-- C16 (defect): a copied object shares the uuid of the original (the implicit copy constructor copies the member), so "distinct
objects have distinct uuids" fails as soon as one object is copied. -/
theorem C16_uuid_copy_defect : (uuidRun (2 ^ 64) [.construct, .construct, .copy 0]).2 = [0, 1, 0] := by decide

end Shamrock
