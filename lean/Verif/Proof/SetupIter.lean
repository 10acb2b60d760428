import Verif.Model.Setup
import Mathlib.Data.List.Perm.Basic
import Mathlib.Data.List.Nodup
import Mathlib.Data.List.Chain
import Mathlib.Tactic.Linarith
/-! The discontinuous iterator and the lattice iterators. -/
namespace Shamrock.Setup

/-- All bit strings of length `n` in the order the iterator visits them. -/
def seqs : Nat → List (List Bool)
  | 0 => [[]]
  | n + 1 => (seqs n).flatMap fun l => [false :: l, true :: l]

theorem mem_seqs (n : Nat) (l : List Bool) : l ∈ seqs n ↔ l.length = n := by
  induction n generalizing l with
  | zero => simp [seqs]
  | succ n ih =>
    simp only [seqs, List.mem_flatMap, ih, List.mem_cons, List.not_mem_nil, or_false]
    constructor
    · rintro ⟨a, ha, rfl | rfl⟩ <;> simp [ha]
    · intro h
      cases l with
      | nil => simp at h
      | cons b l => exact ⟨l, by simpa using h, by cases b <;> simp⟩

theorem seqs_nodup (n : Nat) : (seqs n).Nodup := by
  induction n with
  | zero => simp [seqs]
  | succ n ih =>
    rw [seqs, List.nodup_flatMap]
    refine ⟨fun x _ => by simp, ih.imp ?_⟩
    intro a b hab x hx
    simp only [List.mem_cons, List.not_mem_nil, or_false]
    rcases (by simpa using hx : x = false :: a ∨ x = true :: a) with rfl | rfl <;> simp [hab]

theorem bitVal_lt (l : List Bool) : bitVal l < 2 ^ l.length := by
  induction l with
  | nil => simp [bitVal]
  | cons b l ih =>
    simp only [bitVal, List.length_cons, Nat.pow_succ]
    split <;> omega

theorem bitVal_inj (l m : List Bool) (hl : l.length = m.length) (h : bitVal l = bitVal m) : l = m := by
  induction l generalizing m with
  | nil => cases m with
    | nil => rfl
    | cons => simp at hl
  | cons b l ih =>
    cases m with
    | nil => simp at hl
    | cons c m =>
      simp only [List.length_cons, Nat.add_right_cancel_iff] at hl
      simp only [bitVal, hl] at h
      have h1 := bitVal_lt l
      have h2 := bitVal_lt m
      rw [hl] at h1
      cases b <;> cases c <;> simp at h
      · rw [ih m hl h]
      · omega
      · omega
      · rw [ih m hl h]

theorem bitVal_surj (n v : Nat) (h : v < 2 ^ n) : ∃ l : List Bool, l.length = n ∧ bitVal l = v := by
  induction n generalizing v with
  | zero => exact ⟨[], rfl, by simp at h; simp [bitVal, h]⟩
  | succ n ih =>
    rw [Nat.pow_succ] at h
    by_cases hv : v < 2 ^ n
    · obtain ⟨l, hl, he⟩ := ih v hv
      exact ⟨false :: l, by simp [hl], by simp [bitVal, he]⟩
    · obtain ⟨l, hl, he⟩ := ih (v - 2 ^ n) (by omega)
      exact ⟨true :: l, by simp [hl], by simp only [bitVal, if_true, hl, he]; omega⟩

/-- Successive elements of `seqs` are one carry step apart. -/
theorem seqs_chain (n : Nat) : List.IsChain (fun a b => carryInc a = (b, false)) (seqs n) ∧
    ∃ pre last, seqs n = pre ++ [last] ∧ carryInc last = (List.replicate n false, true) ∧ (seqs n).head? = some (List.replicate n false) := by
  induction n with
  | zero => exact ⟨by simp [seqs], [], [], rfl, rfl, rfl⟩
  | succ n ih =>
    obtain ⟨hc, pre, last, hp, hl, hh⟩ := ih
    refine ⟨?_, pre.flatMap (fun l => [false :: l, true :: l]) ++ [false :: last], true :: last, ?_, ?_, ?_⟩
    · have key : ∀ L : List (List Bool), List.IsChain (fun a b => carryInc a = (b, false)) L →
          List.IsChain (fun a b => carryInc a = (b, false)) (L.flatMap fun l => [false :: l, true :: l]) := by
        intro L
        induction L with
        | nil => intro _; simp
        | cons a L ihL =>
          intro h
          have h2 := ihL h.tail
          cases L with
          | nil => simp [carryInc]
          | cons b L =>
            have h1 : carryInc a = (b, false) := (List.isChain_cons_cons.1 h).1
            simp only [List.flatMap_cons, List.cons_append, List.nil_append] at h2 ⊢
            refine List.isChain_cons_cons.2 ⟨rfl, List.isChain_cons_cons.2 ⟨?_, h2⟩⟩
            simp [carryInc, h1]
      exact key _ hc
    · rw [seqs, hp]; simp
    · simp [carryInc, hl, List.replicate_succ]
    · rw [seqs]
      cases h : seqs n with
      | nil => rw [h] at hh; simp at hh
      | cons a L => rw [h] at hh; simp only [List.head?_cons, Option.some.injEq] at hh; simp [hh, List.replicate_succ]

theorem carryInc_length (l : List Bool) : (carryInc l).1.length = l.length := by
  induction l with
  | nil => rfl
  | cons b l ih => cases b <;> simp [carryInc, ih]

theorem replicate_val (n : Nat) : bitVal (List.replicate n false) = 0 := by
  induction n with
  | zero => rfl
  | succ n ih => simp [List.replicate_succ, bitVal, ih]

/-- From the element `a` of the order, the iterator moves to the next element with an admissible value, or ends. -/
theorem advLoop_spec (off : Int) (T n : Nat) (hT : 0 < T) (rest : List (List Bool)) (a : List Bool)
    (hc : List.IsChain (fun a b => carryInc a = (b, false)) (a :: rest))
    (hl : ∀ last, (a :: rest).getLast? = some last → carryInc last = (List.replicate n false, true)) (f : Nat) (hf : rest.length < f) :
    DIt.advLoop f ⟨off, T, a, false⟩ = some (match rest.dropWhile (fun b => decide (T ≤ bitVal b)) with
      | [] => ⟨off, T, List.replicate n false, true⟩
      | b :: _ => ⟨off, T, b, false⟩) := by
  induction rest generalizing a f with
  | nil =>
    obtain ⟨f, rfl⟩ : ∃ g, f = g + 1 := ⟨f - 1, by omega⟩
    have := hl a (by simp)
    simp only [DIt.advLoop, this, replicate_val, List.dropWhile_nil]
    rw [if_neg (by omega)]
    rfl
  | cons b rest ih =>
    obtain ⟨f, rfl⟩ : ∃ g, f = g + 1 := ⟨f - 1, by omega⟩
    have h1 := (List.isChain_cons_cons.1 hc).1
    simp only [DIt.advLoop, h1, Bool.or_false]
    by_cases hb : T ≤ bitVal b
    · rw [if_pos hb, List.dropWhile_cons_of_pos (by simpa using hb)]
      exact ih b (List.isChain_cons_cons.1 hc).2 (fun last h => hl last (by rw [List.getLast?_cons_cons]; exact h)) f (by simp only [List.length_cons] at hf; omega)
    · rw [if_neg hb, List.dropWhile_cons_of_neg (by simpa using hb)]

theorem collect_spec (off : Int) (T n : Nat) (hT : 0 < T) (rest : List (List Bool)) (a : List Bool) (ha : bitVal a < T)
    (hc : List.IsChain (fun a b => carryInc a = (b, false)) (a :: rest))
    (hl : ∀ last, (a :: rest).getLast? = some last → carryInc last = (List.replicate n false, true)) (f : Nat) (hf : 2 * rest.length + 2 ≤ f) :
    DIt.collect f ⟨off, T, a, false⟩ = some (((a :: rest).filter fun b => decide (bitVal b < T)).map fun b => (bitVal b : Int) + off) := by
  induction hn : rest.length using Nat.strong_induction_on generalizing rest a f with
  | _ m ih =>
    obtain ⟨f, rfl⟩ : ∃ g, f = g + 1 := ⟨f - 1, by omega⟩
    have had := advLoop_spec off T n hT rest a hc hl f (by omega)
    simp only [DIt.collect, Bool.false_eq_true, if_false, DIt.advance, had, Option.bind_some]
    rw [List.filter_cons_of_pos (by simpa using ha), List.map_cons]
    have hfd : (rest.filter fun b => decide (bitVal b < T)) = (rest.dropWhile fun b => decide (T ≤ bitVal b)).filter fun b => decide (bitVal b < T) := by
      clear hc hl hf hn had ih
      induction rest with
      | nil => rfl
      | cons b rest ihr =>
        by_cases hb : T ≤ bitVal b
        · rw [List.dropWhile_cons_of_pos (by simpa using hb), List.filter_cons_of_neg (by simpa using hb), ihr]
        · rw [List.dropWhile_cons_of_neg (by simpa using hb)]
    rw [hfd]
    have hsuf : (rest.dropWhile fun b => decide (T ≤ bitVal b)) <:+ rest := List.dropWhile_suffix _
    cases hd : rest.dropWhile fun b => decide (T ≤ bitVal b) with
    | nil =>
      obtain ⟨f, rfl⟩ : ∃ g, f = g + 1 := ⟨f - 1, by omega⟩
      simp [DIt.collect, DIt.get]
    | cons b rest' =>
      rw [hd] at hsuf
      have hsuf2 : b :: rest' <:+ a :: rest := hsuf.trans (List.suffix_cons _ _)
      have hlen : rest'.length < rest.length := by have := hsuf.length_le; simp only [List.length_cons] at this; omega
      have hbT : bitVal b < T := by
        have := List.head?_dropWhile_not (fun b => decide (T ≤ bitVal b)) rest
        rw [hd] at this
        simpa using this
      have hch : List.IsChain (fun a b => carryInc a = (b, false)) (b :: rest') := hc.suffix hsuf2
      have hlast : ∀ last, (b :: rest').getLast? = some last → carryInc last = (List.replicate n false, true) := by
        intro last h
        apply hl
        obtain ⟨pre, hpre⟩ := hsuf2
        rw [← hpre, List.getLast?_append, h]
        rfl
      simp only [ih rest'.length (by omega) rest' b hbT hch hlast f (by omega) rfl, Option.map_some, DIt.get]

theorem topBit_spec (n b : Nat) (h : n < 2 ^ b) : n < 2 ^ topBit n b := by
  induction b with
  | zero => simpa [topBit] using h
  | succ b ih =>
    rw [topBit]
    split
    · exact h
    · apply ih
      rename_i hb
      rw [Nat.testBit_eq_decide_div_mod_eq] at hb
      have h1 : n / 2 ^ b < 2 := by rw [Nat.div_lt_iff_lt_mul (Nat.two_pow_pos b)]; rw [Nat.pow_succ] at h; omega
      have h2 : n / 2 ^ b = 0 := by
        clear h ih
        generalize n / 2 ^ b = q at *
        rw [decide_eq_true_eq] at hb
        omega
      rcases Nat.div_eq_zero_iff.1 h2 with h3 | h3
      · have := Nat.two_pow_pos b; omega
      · exact h3

theorem topBit_le (n b : Nat) : topBit n b ≤ b := by
  induction b with
  | zero => simp [topBit]
  | succ b ih => rw [topBit]; split <;> omega

theorem dit_ok (a b : Int) (hab : a ≤ b) (h : b - a < 2 ^ 31) :
    ∃ it l, DIt.mk' a b = some it ∧ (∀ fuel, 2 ^ 33 ≤ fuel → it.collect fuel = some l) ∧ l.Perm ((List.range (b - a).toNat).map fun (i : Nat) => a + (i : Int)) := by
  have hn : ((b - a) % 2 ^ 32).toNat = (b - a).toNat := by rw [Int.emod_eq_of_lt (by omega) (by omega)]
  rcases Int.lt_or_eq_of_le hab with hlt | heq
  · have h0 : 0 < (b - a).toNat := by omega
    have hT : (b - a).toNat < 2 ^ 32 := by omega
    have hk := topBit_spec _ 32 hT
    have hk32 := topBit_le (b - a).toNat 32
    refine ⟨⟨a, (b - a).toNat, List.replicate (topBit (b - a).toNat 32) false, false⟩,
      ((seqs (topBit (b - a).toNat 32)).filter fun s => decide (bitVal s < (b - a).toNat)).map fun s => (bitVal s : Int) + a, ?_, ?_, ?_⟩
    · unfold DIt.mk'
      rw [if_neg (by omega)]
      simp only [hn, hlt, not_true, decide_false]
    · intro fuel hfuel
      generalize topBit (b - a).toNat 32 = k at *
      generalize (b - a).toNat = T at *
      obtain ⟨hc, pre, last, hp, hlst, hh⟩ := seqs_chain k
      have hlen : (seqs k).length = 2 ^ k := by
        clear * -
        induction k with
        | zero => rfl
        | succ k ih => rw [seqs, List.length_flatMap]; simp [Nat.pow_succ, ih]
      cases hs : seqs k with
      | nil => rw [hs] at hh; simp at hh
      | cons x rest =>
        rw [hs] at hh
        simp only [List.head?_cons, Option.some.injEq] at hh
        subst hh
        have h2k : 2 ^ k ≤ 2 ^ 32 := Nat.pow_le_pow_right (by omega) hk32
        rw [hs, List.length_cons] at hlen
        refine collect_spec a T k h0 rest _ (by rw [replicate_val]; exact h0) (hs ▸ hc) ?_ fuel (by omega)
        intro l' hl'
        rw [← hs, hp, List.getLast?_append] at hl'
        simp only [List.getLast?_singleton, Option.or, Option.some.injEq] at hl'
        rw [← hl']; exact hlst
    · have : (((seqs (topBit (b - a).toNat 32)).filter fun s => decide (bitVal s < (b - a).toNat)).map bitVal).Perm (List.range (b - a).toNat) := by
        generalize topBit (b - a).toNat 32 = k at *
        generalize (b - a).toNat = T at *
        rw [List.perm_ext_iff_of_nodup _ List.nodup_range]
        · intro v
          simp only [List.mem_map, List.mem_filter, mem_seqs, decide_eq_true_eq, List.mem_range]
          constructor
          · rintro ⟨s, ⟨_, hs⟩, rfl⟩; exact hs
          · intro hv
            obtain ⟨s, hs1, hs2⟩ := bitVal_surj k v (by omega)
            exact ⟨s, ⟨hs1, by omega⟩, hs2⟩
        · refine List.Nodup.map_on ?_ ((seqs_nodup k).filter _)
          intro x hx y hy hxy
          rw [List.mem_filter, mem_seqs] at hx hy
          exact bitVal_inj x y (by rw [hx.1, hy.1]) hxy
      have h2 := this.map fun (i : Nat) => a + (i : Int)
      rw [List.map_map] at h2
      refine List.Perm.trans (List.Perm.of_eq ?_) h2
      apply List.map_congr_left
      intro s _
      simp only [Function.comp]
      omega
  · subst heq
    refine ⟨⟨a, 0, List.replicate (topBit 0 32) false, true⟩, [], ?_, ?_, ?_⟩
    · unfold DIt.mk'
      rw [if_neg (by omega)]
      simp
    · intro fuel hf
      obtain ⟨f, rfl⟩ : ∃ g, fuel = g + 1 := ⟨fuel - 1, by omega⟩
      simp [DIt.collect]
    · simp

end Shamrock.Setup
