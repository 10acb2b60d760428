import Verif.Model.Search
import Mathlib.Data.List.Basic
import Mathlib.Data.List.Nodup
import Mathlib.Data.List.Range
import Mathlib.Order.Basic
/-! Lemmas for the insertion sorts and the odd-even network. -/
namespace Shamrock

/-- `comp` is a C++ strict weak order (the requirement of `std::sort` style comparators). -/
structure StrictWeak {α} (comp : α → α → Bool) : Prop where
  asymm : ∀ a b, comp a b = true → comp b a = false
  negTrans : ∀ a b c, comp a b = false → comp b c = false → comp a c = false

/-- Sorted with respect to `comp`: no later element is strictly before an earlier one. -/
def CompSorted {α} (comp : α → α → Bool) (l : List α) : Prop := l.Pairwise (fun a b => comp b a = false)

/-- The sub array `[s, e)`. -/
def seg {α} (l : List α) (s e : Nat) : List α := (l.drop s).take (e - s)

theorem StrictWeak.irrefl {α} {comp : α → α → Bool} (h : StrictWeak comp) (a : α) : comp a a = false := by
  cases hc : comp a a
  · rfl
  · have := h.asymm a a hc; rw [hc] at this; exact this

theorem StrictWeak.trans' {α} {comp : α → α → Bool} (h : StrictWeak comp) {a b c : α} (h1 : comp a b = true)
    (h2 : comp c b = false) : comp a c = true := by
  cases hc : comp a c
  · have := h.negTrans a c b hc h2; rw [h1] at this; cases this
  · rfl

theorem insertShift_spec {α} (comp : α → α → Bool) (key : α) (A : List α) :
    ∀ (S : List α) (x : α) (B : List α),
      ∃ S1 S2, S = S1 ++ S2 ∧ (∀ s ∈ S2, comp key s = true) ∧ (∀ s, S1.getLast? = some s → comp key s = false) ∧
        insertShift comp A.length key (A.length + S.length) (A ++ S ++ x :: B) = some (A ++ S1 ++ key :: (S2 ++ B)) := by
  intro S
  induction S using List.reverseRecOn with
  | nil =>
    intro x B
    refine ⟨[], [], rfl, by simp, by simp, ?_⟩
    cases hA : A.length with
    | zero =>
      have : A = [] := List.length_eq_zero_iff.1 hA
      subst this
      simp [insertShift, wr]
    | succ n =>
      simp only [List.length_nil, Nat.add_zero, insertShift]
      rw [if_neg (by omega)]
      simp [wr, hA, List.set_append]
  | append_singleton S' d ih =>
    intro x B
    have hlen : A.length + (S' ++ [d]).length = (A.length + S'.length) + 1 := by simp; omega
    have hget : (A ++ (S' ++ [d]) ++ x :: B)[A.length + S'.length]? = some d := by
      have : A ++ (S' ++ [d]) ++ x :: B = (A ++ S') ++ d :: (x :: B) := by simp
      rw [this, List.getElem?_append_right (by simp)]
      simp
    have hset : ∀ v, (A ++ (S' ++ [d]) ++ x :: B).set (A.length + S'.length + 1) v = A ++ (S' ++ [d]) ++ v :: B := by
      intro v
      rw [List.set_append_right _ _ (by simp; omega)]
      have : A.length + S'.length + 1 - (A ++ (S' ++ [d])).length = 0 := by simp; omega
      rw [this]; rfl
    rw [hlen]
    simp only [insertShift]
    rw [if_pos (by omega), hget]
    simp only [Option.bind_eq_bind, Option.bind_some]
    have hwr : ∀ v, wr (A ++ (S' ++ [d]) ++ x :: B) (A.length + S'.length + 1) v = some (A ++ (S' ++ [d]) ++ v :: B) := by
      intro v
      unfold wr
      rw [if_pos (by simp; omega), hset]
    cases hc : comp key d with
    | true =>
      obtain ⟨S1, S2, h1, h2, h3, h4⟩ := ih d (d :: B)
      refine ⟨S1, S2 ++ [d], by rw [h1]; simp, ?_, h3, ?_⟩
      · intro s hs
        rcases List.mem_append.1 hs with h | h
        · exact h2 s h
        · rw [List.mem_singleton.1 h]; exact hc
      · simp only [if_true, hwr, Option.bind_some]
        have : A ++ (S' ++ [d]) ++ d :: B = A ++ S' ++ d :: d :: B := by simp
        rw [this, h4]; simp
    | false =>
      refine ⟨S' ++ [d], [], by simp, by simp, ?_, ?_⟩
      · intro s hs; simp at hs; rw [← hs]; exact hc
      · rw [if_neg (by simp), hwr]; simp

theorem insertSortFrom_spec {α} (comp : α → α → Bool) (hw : StrictWeak comp) (A : List α) :
    ∀ (T S B : List α), CompSorted comp S →
      ∃ S', insertSortFrom comp A.length T.length (A.length + S.length) (A ++ S ++ T ++ B) = some (A ++ S' ++ B) ∧
        CompSorted comp S' ∧ S'.Perm (S ++ T) := by
  intro T
  induction T with
  | nil => intro S B h; exact ⟨S, by simp [insertSortFrom], h, by simp⟩
  | cons x T ih =>
    intro S B h
    simp only [List.length_cons, insertSortFrom]
    have hget : (A ++ S ++ x :: T ++ B)[A.length + S.length]? = some x := by
      rw [List.append_assoc, List.getElem?_append_right (by simp)]; simp
    rw [hget]
    obtain ⟨S1, S2, h1, h2, h3, h4⟩ := insertShift_spec comp x A S x (T ++ B)
    have e : A ++ S ++ x :: T ++ B = A ++ S ++ x :: (T ++ B) := by simp
    simp only [Option.bind_eq_bind, Option.bind_some]
    rw [e, h4]
    simp only [Option.bind_some]
    have hs' : CompSorted comp (S1 ++ x :: S2) := by
      subst h1
      unfold CompSorted at h ⊢
      rw [List.pairwise_append] at h
      obtain ⟨p1, p2, p3⟩ := h
      rw [List.pairwise_append, List.pairwise_cons]
      refine ⟨p1, ⟨fun a ha => hw.asymm _ _ (h2 a ha), p2⟩, ?_⟩
      intro a ha b hb
      rcases List.mem_cons.1 hb with rfl | hb
      · -- a ∈ S1, last of S1 not after key
        rcases List.eq_nil_or_concat S1 with rfl | ⟨L, z, rfl⟩
        · simp at ha
        · have hz := h3 z (by simp)
          rw [List.concat_eq_append] at ha p1
          rcases List.mem_append.1 ha with h | h
          · have := (List.pairwise_append.1 p1).2.2 a h z (by simp)
            exact hw.negTrans _ _ _ hz this
          · rw [List.mem_singleton.1 h]; exact hz
      · exact p3 a ha b hb
    obtain ⟨S', q1, q2, q3⟩ := ih (S1 ++ x :: S2) B hs'
    refine ⟨S', ?_, q2, ?_⟩
    · have hl : A.length + (S1 ++ x :: S2).length = A.length + S.length + 1 := by rw [h1]; simp; omega
      rw [hl] at q1
      rw [← q1]; simp
    · refine q3.trans ?_
      rw [h1]
      have : (S1 ++ x :: S2 ++ T).Perm (x :: (S1 ++ S2) ++ T) := by
        apply List.Perm.append_right; exact List.perm_middle
      refine this.trans ?_
      have : (x :: (S1 ++ S2) ++ T).Perm ((S1 ++ S2) ++ x :: T) := List.perm_middle.symm
      exact this

theorem ptrInsertSort_parts {α} (comp : α → α → Bool) (hw : StrictWeak comp) (A S B : List α) (hS : S ≠ []) :
    ∃ S', ptrInsertSort comp A.length (A.length + S.length) (A ++ S ++ B) = some (A ++ S' ++ B) ∧ CompSorted comp S' ∧
      S'.Perm S := by
  cases S with
  | nil => exact absurd rfl hS
  | cons x T =>
    obtain ⟨S', h1, h2, h3⟩ := insertSortFrom_spec comp hw A T [x] B (by simp [CompSorted])
    refine ⟨S', ?_, h2, h3⟩
    unfold ptrInsertSort
    have e : A.length + (x :: T).length - (A.length + 1) = T.length := by simp only [List.length_cons]; omega
    rw [e]
    simpa using h1

theorem split3 {α} (l : List α) (s e : Nat) (h : s ≤ e) (h2 : e ≤ l.length) :
    l = l.take s ++ seg l s e ++ l.drop e ∧ (l.take s).length = s ∧ (seg l s e).length = e - s := by
  refine ⟨?_, by simp; omega, by simp [seg]; omega⟩
  unfold seg
  have : l.drop e = (l.drop s).drop (e - s) := by rw [List.drop_drop]; congr 1; omega
  rw [this, List.append_assoc, List.take_append_drop, List.take_append_drop]

theorem seg_parts {α} (A S B : List α) : seg (A ++ S ++ B) A.length (A.length + S.length) = S := by
  unfold seg
  rw [List.append_assoc, List.drop_left, Nat.add_sub_cancel_left, List.take_left]

theorem seg_congr {α} (l l' : List α) (s e : Nat)
    (h : ∀ i : Nat, s ≤ i → i < e → l[i]? = l'[i]?) : seg l s e = seg l' s e := by
  apply List.ext_getElem?
  intro k
  unfold seg
  simp only [List.getElem?_take, List.getElem?_drop]
  split
  · exact h _ (by omega) (by omega)
  · rfl

/-- `ptr_insert_sort` on a sub range. -/
theorem ptrInsertSort_spec {α} (comp : α → α → Bool) (hw : StrictWeak comp) (data : List α) (s e : Nat) (h : s < e)
    (h2 : e ≤ data.length) :
    ∃ out, ptrInsertSort comp s e data = some out ∧ out.length = data.length ∧ CompSorted comp (seg out s e) ∧
      (seg out s e).Perm (seg data s e) ∧ ∀ i : Nat, i < s ∨ e ≤ i → out[i]? = data[i]? := by
  obtain ⟨h3, h4, h5⟩ := split3 data s e (by omega) h2
  have hne : seg data s e ≠ [] := by intro hc; rw [hc] at h5; simp at h5; omega
  obtain ⟨S', q1, q2, q3⟩ := ptrInsertSort_parts comp hw (data.take s) (seg data s e) (data.drop e) hne
  rw [← h3, h4, h5] at q1
  have hl : S'.length = e - s := by rw [q3.length_eq, h5]
  have he : s + (e - s) = e := by omega
  rw [he] at q1
  have hseg : seg (data.take s ++ S' ++ data.drop e) s e = S' := by
    have := seg_parts (data.take s) S' (data.drop e)
    rw [h4, hl, he] at this; exact this
  refine ⟨_, q1, ?_, ?_, ?_, ?_⟩
  · simp; omega
  · rw [hseg]; exact q2
  · rw [hseg]; exact q3
  · intro i hi
    conv => rhs; rw [h3]
    rcases hi with hi | hi
    · rw [List.append_assoc, List.append_assoc, List.getElem?_append_left (by omega), List.getElem?_append_left (by omega)]
    · rw [List.getElem?_append_right (by simp; omega), List.getElem?_append_right (by simp; omega)]
      have : (data.take s ++ S').length = (data.take s ++ seg data s e).length := by
        rw [List.length_append, List.length_append, hl, h5]
      rw [this]

end Shamrock
