import Verif.Model.Str
import Mathlib.Data.List.Infix
/-! Property C31: string helpers. -/
namespace Shamrock

theorem strFindFrom_spec (s what : List Char) : ∀ k pos,
    (∀ p, strFindFrom s what pos k = some p → pos ≤ p ∧ p < pos + k ∧ what <+: s.drop p ∧ ∀ q, pos ≤ q → q < p → ¬ what <+: s.drop q) ∧
    (strFindFrom s what pos k = none → ∀ q, pos ≤ q → q < pos + k → ¬ what <+: s.drop q) := by
  intro k
  induction k with
  | zero =>
    intro pos
    refine ⟨fun p h => (by cases h), fun _ q h1 h2 => (by omega)⟩
  | succ k ih =>
    intro pos
    obtain ⟨i1, i2⟩ := ih (pos + 1)
    unfold strFindFrom
    by_cases hp : what.isPrefixOf (s.drop pos) = true
    · rw [if_pos hp]
      refine ⟨fun p h => ?_, fun h => by cases h⟩
      rw [Option.some.injEq] at h
      subst h
      exact ⟨Nat.le_refl _, by omega, List.isPrefixOf_iff_prefix.1 hp, fun q h1 h2 => by omega⟩
    · rw [if_neg hp]
      have hn : ¬ what <+: s.drop pos := fun h => hp (List.isPrefixOf_iff_prefix.2 h)
      refine ⟨fun p h => ?_, fun h q h1 h2 => ?_⟩
      · obtain ⟨a, b, c, d⟩ := i1 p h
        refine ⟨by omega, by omega, c, fun q h1 h2 => ?_⟩
        by_cases hq : q = pos
        · rw [hq]; exact hn
        · exact d q (by omega) h2
      · by_cases hq : q = pos
        · rw [hq]; exact hn
        · exact i2 h q (by omega) (by omega)

/-- `find`: the result is the first occurrence at or after `pos`; for a non empty needle, `npos` means there is none. -/
theorem strFind_spec (s what : List Char) (hw : what ≠ []) (pos : Nat) :
    (∀ p, strFind s what pos = some p → pos ≤ p ∧ p + what.length ≤ s.length ∧ what <+: s.drop p ∧ ∀ q, pos ≤ q → q < p → ¬ what <+: s.drop q) ∧
    (strFind s what pos = none → ∀ q, pos ≤ q → ¬ what <+: s.drop q) := by
  obtain ⟨h1, h2⟩ := strFindFrom_spec s what (s.length + 1 - pos) pos
  have hl : ∀ q, what <+: s.drop q → q + what.length ≤ s.length := by
    intro q h
    have h1 := h.length_le
    rw [List.length_drop] at h1
    have h2 := List.length_pos_iff.2 hw
    omega
  refine ⟨fun p h => ?_, fun h q hq hp => ?_⟩
  · obtain ⟨a, _, c, d⟩ := h1 p h
    exact ⟨a, hl p c, c, d⟩
  · have := hl q hp
    exact h2 h q hq (by omega) hp

theorem strFind_zero_infix (s what : List Char) (hw : what ≠ []) : (strFind s what 0).isSome = true ↔ what <:+: s := by
  obtain ⟨h1, h2⟩ := strFind_spec s what hw 0
  constructor
  · intro h
    obtain ⟨p, hp⟩ := Option.isSome_iff_exists.1 h
    obtain ⟨_, _, c, _⟩ := h1 p hp
    exact c.isInfix.trans (List.drop_suffix _ _).isInfix
  · rintro ⟨a, b, rfl⟩
    cases h : strFind (a ++ what ++ b) what 0 with
    | some p => rfl
    | none =>
      refine absurd ?_ (h2 h a.length (Nat.zero_le _))
      rw [List.append_assoc, List.drop_left]
      exact List.prefix_append _ _

/-- Specification of "replace every non overlapping occurrence, left to right". -/
def replaceSpec (what w : List Char) : Nat → List Char → List Char
  | 0, s => s
  | n + 1, s => match s with
    | [] => []
    | c :: r => if what <+: (c :: r) then w ++ replaceSpec what w n ((c :: r).drop what.length) else c :: replaceSpec what w n r

theorem replaceSpec_nil (what w : List Char) (n : Nat) : replaceSpec what w n [] = [] := by cases n <;> rfl

/-- Skipping the characters before the first occurrence. -/
theorem replaceSpec_skip (what w : List Char) : ∀ (k : Nat) (s : List Char) (n : Nat), s.length ≤ n → k ≤ s.length → (∀ q < k, ¬ what <+: s.drop q) →
    replaceSpec what w n s = s.take k ++ replaceSpec what w (n - k) (s.drop k) := by
  intro k
  induction k with
  | zero => intro s n _ _ _; simp
  | succ k ih =>
    intro s n hn hk hq
    cases s with
    | nil => simp at hk
    | cons c r =>
      cases n with
      | zero => simp at hn
      | succ n =>
        have h0 : ¬ what <+: (c :: r) := hq 0 (by omega)
        rw [replaceSpec, if_neg h0, ih r n (by simpa using hn) (by simpa using hk) (fun q h => hq (q + 1) (by omega))]
        simp only [List.take_succ_cons, List.drop_succ_cons, List.cons_append]
        rw [Nat.add_sub_add_right]

theorem replaceLoop_spec (what w : List Char) (hw : what ≠ []) : ∀ (fuel : Nat) (pre s : List Char), s.length < fuel →
    replaceAllLoop what w fuel (pre ++ s) pre.length = some (pre ++ replaceSpec what w s.length s) := by
  intro fuel
  have hwl := List.length_pos_iff.2 hw
  induction fuel with
  | zero => intro pre s h; omega
  | succ fuel ih =>
    intro pre s hlen
    obtain ⟨f1, f2⟩ := strFind_spec (pre ++ s) what hw pre.length
    have hdrop : ∀ q, (pre ++ s).drop (pre.length + q) = s.drop q := by intro q; rw [List.drop_append]; simp
    unfold replaceAllLoop
    cases h : strFind (pre ++ s) what pre.length with
    | none =>
      simp only
      have := replaceSpec_skip what w s.length s s.length (Nat.le_refl _) (Nat.le_refl _) (fun q hq => by
        rw [← hdrop q]; exact f2 h _ (by omega))
      rw [this, List.take_length, List.drop_length, replaceSpec_nil, List.append_nil]
    | some p =>
      simp only
      obtain ⟨a, b, c, d⟩ := f1 p h
      obtain ⟨k, rfl⟩ : ∃ k, p = pre.length + k := ⟨p - pre.length, by omega⟩
      rw [List.length_append] at b
      rw [hdrop k] at c
      have hk : k + what.length ≤ s.length := by omega
      have hsk := replaceSpec_skip what w k s s.length (Nat.le_refl _) (by omega) (fun q hq => by
        rw [← hdrop q]; exact d _ (by omega) (by omega))
      have hm : replaceSpec what w (s.length - k) (s.drop k) = w ++ replaceSpec what w (s.length - k - 1) (s.drop (k + what.length)) := by
        obtain ⟨m, hm⟩ : ∃ m, s.length - k = m + 1 := ⟨s.length - k - 1, by omega⟩
        rw [hm]
        have hne : (s.drop k) ≠ [] := by
          intro h0
          have := congrArg List.length h0
          rw [List.length_drop, List.length_nil] at this
          omega
        obtain ⟨x, r, hx⟩ := List.exists_cons_of_ne_nil hne
        rw [hx] at c ⊢
        rw [replaceSpec, if_pos c, ← hx, List.drop_drop]
        rfl
      have hfuel : ∀ (n : Nat) (u : List Char), u.length ≤ n → replaceSpec what w n u = replaceSpec what w u.length u := by
        intro n
        induction n with
        | zero => intro u hu; have : u.length = 0 := by omega
                  rw [this]
        | succ n ihn =>
          intro u hu
          cases u with
          | nil => rw [replaceSpec_nil, replaceSpec_nil]
          | cons x r =>
            rw [List.length_cons, replaceSpec, replaceSpec]
            by_cases hp : what <+: (x :: r)
            · rw [if_pos hp, if_pos hp]
              have hl : ((x :: r).drop what.length).length ≤ r.length := by rw [List.length_drop, List.length_cons]; omega
              rw [List.length_cons] at hu
              rw [ihn _ (by omega)]
              have : ∀ (n m : Nat) (u : List Char), u.length ≤ n → u.length ≤ m → replaceSpec what w n u = replaceSpec what w m u := by
                intro n
                induction n with
                | zero =>
                  intro m u h1 _
                  have : u = [] := List.length_eq_zero_iff.1 (by omega)
                  subst this
                  rw [replaceSpec_nil, replaceSpec_nil]
                | succ n ih2 =>
                  intro m u h1 h2
                  cases u with
                  | nil => rw [replaceSpec_nil, replaceSpec_nil]
                  | cons y t =>
                    cases m with
                    | zero => simp at h2
                    | succ m =>
                      rw [List.length_cons] at h1 h2
                      rw [replaceSpec, replaceSpec]
                      by_cases hp : what <+: (y :: t)
                      · rw [if_pos hp, if_pos hp, ih2 m _ (by rw [List.length_drop, List.length_cons]; omega) (by rw [List.length_drop, List.length_cons]; omega)]
                      · rw [if_neg hp, if_neg hp, ih2 m t (by omega) (by omega)]
              rw [this _ r.length _ (Nat.le_refl _) hl]
            · rw [if_neg hp, if_neg hp, ihn r (by simpa using hu)]
      have e1 : (pre ++ s).take (pre.length + k) ++ (w ++ (pre ++ s).drop (pre.length + k + what.length)) =
          (pre ++ s.take k ++ w) ++ s.drop (k + what.length) := by
        rw [Nat.add_assoc, hdrop, List.take_append]
        simp
      have e2 : pre.length + k + w.length = (pre ++ s.take k ++ w).length := by
        rw [List.length_append, List.length_append, List.length_take, Nat.min_eq_left (by omega)]
      rw [e1, e2, ih _ _ (by rw [List.length_drop]; omega), hsk, hm, hfuel (s.length - k - 1) _ (by rw [List.length_drop]; omega)]
      simp

/-- C31: `replace_all` with a non empty pattern terminates (in at most one iteration more than the text has characters) and replaces every
non overlapping occurrence from left to right; the inserted text is not scanned again. -/
theorem C31_replace_all (s what w : List Char) (hw : what ≠ []) (fuel : Nat) (hf : s.length < fuel) :
    replaceAll fuel s what w = some (replaceSpec what w s.length s) :=
  replaceLoop_spec what w hw fuel [] s hf

/-- C31: `increase_indent` indents the first line and every following one. -/
theorem C31_increase_indent (s delim : List Char) (fuel : Nat) (hf : s.length < fuel) :
    increaseIndent fuel s delim = some ([' ', ' ', ' ', ' '] ++ s.flatMap (fun c => if c = '\n' then delim else [c])) := by
  unfold increaseIndent
  rw [C31_replace_all s _ delim (by simp) fuel hf, Option.map_some]
  have : ∀ s : List Char, replaceSpec ['\n'] delim s.length s = s.flatMap (fun c => if c = '\n' then delim else [c]) := by
    intro s
    induction s with
    | nil => rfl
    | cons c r ih =>
      rw [List.length_cons, replaceSpec, List.flatMap_cons]
      by_cases hc : c = '\n'
      · subst hc
        rw [if_pos (show ['\n'] <+: '\n' :: r from List.prefix_append ['\n'] r), if_pos rfl]
        show delim ++ replaceSpec ['\n'] delim r.length r = _
        rw [ih]
      · rw [if_neg (fun h => hc (by obtain ⟨t, ht⟩ := h; simp at ht; exact ht.1.symm)), if_neg hc, ih]; rfl
  rw [this]

/-- C31 (defect): with an empty pattern `replace_all` never terminates, whatever the text and the replacement. -/
theorem C31_replace_all_empty_defect (s w : List Char) (fuel : Nat) : replaceAll fuel s [] w = none := by
  have : ∀ fuel s pos, pos ≤ s.length → replaceAllLoop [] w fuel s pos = none := by
    intro fuel
    induction fuel with
    | zero => intro _ _ _; rfl
    | succ fuel ih =>
      intro s pos hp
      unfold replaceAllLoop
      have : strFind s [] pos = some pos := by
        unfold strFind
        rw [show s.length + 1 - pos = (s.length - pos) + 1 by omega, strFindFrom, if_pos (by cases s.drop pos <;> rfl)]
      rw [this]
      simp only
      refine ih _ _ ?_
      simp only [List.length_append, List.length_take, List.length_drop, List.length_nil]
      omega
  exact this fuel s 0 (Nat.zero_le _)

/-! ### split_str -/

/-- Specification: `pieces` is what the leftmost occurrences of `delim` cut `s` into. -/
structure IsSplit (delim s : List Char) (pieces : List (List Char)) : Prop where
  /-- the pieces joined by the delimiter are the string -/
  join : s = List.intercalate delim pieces
  /-- each piece but the last is followed by the first occurrence of the delimiter in what remains -/
  first : ∀ p ∈ pieces.dropLast, ∀ q < p.length, ¬ delim <+: (p ++ delim).drop q
  /-- the last piece contains no delimiter -/
  last : ∀ p, pieces.getLast? = some p → ¬ delim <:+: p
  nonempty : pieces ≠ []

theorem prefix_of_prefix_append {α : Type} {a b c : List α} (h : a <+: b ++ c) (hl : a.length ≤ b.length) : a <+: b := by
  exact List.prefix_of_prefix_length_le h (List.prefix_append b c) hl

theorem splitStrLoop_spec (delim : List Char) (hd : delim ≠ []) : ∀ (fuel : Nat) (s : List Char) (ret : List (List Char)), s.length < fuel →
    ∃ pieces, IsSplit delim s pieces ∧ splitStrLoop delim fuel s ret = some (ret ++ pieces.filter (fun p => decide (p.length > 0))) := by
  have hdl := List.length_pos_iff.2 hd
  intro fuel
  induction fuel with
  | zero => intro s ret h; omega
  | succ fuel ih =>
    intro s ret hlen
    obtain ⟨f1, f2⟩ := strFind_spec s delim hd 0
    unfold splitStrLoop
    cases h : strFind s delim 0 with
    | none =>
      refine ⟨[s], ⟨by simp [List.intercalate, List.intersperse], fun p hp => (by cases hp), fun p hp => ?_, (by simp)⟩, ?_⟩
      · have : p = s := by simpa using hp.symm
        subst this
        intro hi
        have := (strFind_zero_infix p delim hd).2 hi
        rw [h] at this; cases this
      · simp only
        by_cases hs : s.length > 0
        · rw [if_pos hs, List.filter_cons_of_pos (by simpa using hs), List.filter_nil]
        · rw [if_neg hs, List.filter_cons_of_neg (by simpa using hs), List.filter_nil, List.append_nil]
    | some pos =>
      simp only
      obtain ⟨_, b, c, d⟩ := f1 pos h
      have hsplit : s = s.take pos ++ (delim ++ s.drop (pos + delim.length)) := by
        obtain ⟨t, ht⟩ := c
        have : s.drop (pos + delim.length) = t := by rw [← List.drop_drop, ← ht, List.drop_left]
        rw [this, ht, List.take_append_drop]
      obtain ⟨pieces, hp, he⟩ := ih (s.drop (pos + delim.length)) (if (s.take pos).length > 0 then ret ++ [s.take pos] else ret)
        (by rw [List.length_drop]; omega)
      obtain ⟨p0, ps, hpp⟩ := List.exists_cons_of_ne_nil hp.nonempty
      refine ⟨s.take pos :: pieces, ⟨?_, ?_, ?_, by simp⟩, ?_⟩
      · rw [hpp, List.intercalate_cons_cons, ← hpp, ← hp.join, List.append_assoc]; exact hsplit
      · intro p hpm
        rw [hpp, List.dropLast_cons_cons, ← hpp] at hpm
        rcases List.mem_cons.1 hpm with rfl | hpm
        · intro q hq hpre
          have hlt : (s.take pos).length = pos := by rw [List.length_take]; omega
          rw [hlt] at hq
          apply d q (Nat.zero_le _) hq
          have : s.drop q = (s.take pos ++ delim).drop q ++ s.drop (pos + delim.length) := by
            conv_lhs => rw [hsplit]
            rw [← List.append_assoc, List.drop_append_of_le_length]
            rw [List.length_append, hlt]; omega
          rw [this]
          exact hpre.trans (List.prefix_append _ _)
        · exact hp.first p hpm
      · intro p hpl
        apply hp.last p
        rw [hpp, List.getLast?_cons_cons] at hpl
        rw [hpp]; exact hpl
      · rw [he]
        by_cases hs : (s.take pos).length > 0
        · rw [if_pos hs, List.filter_cons_of_pos (by simpa using hs), List.append_assoc]; rfl
        · rw [if_neg hs, List.filter_cons_of_neg (by simpa using hs)]

/-- C31: `split_str` with a non empty delimiter terminates and returns, in order, exactly the non empty pieces between the leftmost
occurrences of the delimiter. -/
theorem C31_split_str (s delim : List Char) (hd : delim ≠ []) (fuel : Nat) (hf : s.length < fuel) :
    ∃ pieces, IsSplit delim s pieces ∧ splitStr fuel s delim = some (pieces.filter (fun p => decide (p.length > 0))) := by
  obtain ⟨pieces, h1, h2⟩ := splitStrLoop_spec delim hd fuel s [] hf
  exact ⟨pieces, h1, by rw [splitStr, h2, List.nil_append]⟩

/-- C31 (defect): with an empty delimiter `split_str` never terminates. -/
theorem C31_split_str_empty_defect (s : List Char) (fuel : Nat) : splitStr fuel s [] = none := by
  have : ∀ fuel ret, splitStrLoop [] fuel s ret = none := by
    intro fuel
    induction fuel with
    | zero => intro _; rfl
    | succ fuel ih =>
      intro ret
      unfold splitStrLoop
      have : strFind s [] 0 = some 0 := by
        unfold strFind
        rw [Nat.sub_zero, strFindFrom, if_pos (by cases s.drop 0 <;> rfl)]
      rw [this]
      simp only
      exact ih _
  exact this fuel []

/-! ### the rest -/

/-- C31: `trunc_str` refuses limits below 5, keeps strings within the limit, and otherwise returns the beginning followed by " ...", one
character shorter than the limit. -/
theorem C31_trunc_str (s : List Char) (n : Nat) :
    (n < 5 → truncStr s n = .throws) ∧ (5 ≤ n → s.length ≤ n → truncStr s n = .ok s) ∧
    (5 ≤ n → n < s.length → ∃ r p, truncStr s n = .ok r ∧ p <+: s ∧ p.length = n - 5 ∧ r = p ++ " ...".toList ∧ r.length = n - 1) := by
  refine ⟨fun h => by simp [truncStr, h], fun h1 h2 => ?_, fun h1 h2 => ?_⟩
  · rw [truncStr, if_neg (by omega), if_neg (by omega)]
  · refine ⟨_, s.take (n - 5), by rw [truncStr, if_neg (by omega), if_pos (by omega)]; rfl, List.take_prefix _ _, ?_, rfl, ?_⟩
    · rw [List.length_take]; omega
    · rw [List.length_append, List.length_take]
      simp; omega

/-- C31: `trunc_str_start` keeps strings within the limit and otherwise returns "... " followed by the end of the string, exactly as long
as the limit. -/
theorem C31_trunc_str_start (s : List Char) (n : Nat) :
    (n < 5 → truncStrStart s n = .throws) ∧ (5 ≤ n → s.length ≤ n → truncStrStart s n = .ok s) ∧
    (5 ≤ n → n < s.length → ∃ r p, truncStrStart s n = .ok r ∧ p <:+ s ∧ r = "... ".toList ++ p ∧ r.length = n) := by
  refine ⟨fun h => by simp [truncStrStart, h], fun h1 h2 => ?_, fun h1 h2 => ?_⟩
  · rw [truncStrStart, if_neg (by omega), if_neg (by omega)]
  · have ht : (s.drop (s.length - (n - 4))).take s.length = s.drop (s.length - (n - 4)) := by
      apply List.take_of_length_le; rw [List.length_drop]; omega
    refine ⟨_, s.drop (s.length - (n - 4)), by rw [truncStrStart, if_neg (by omega), if_pos (by omega), ht]; rfl, List.drop_suffix _ _, rfl, ?_⟩
    rw [List.length_append, List.length_drop]
    simp; omega

/-- C31: `contain_substr` says whether the second string occurs in the first. -/
theorem C31_contain_substr (s what : List Char) : containSubstr s what = true ↔ what <:+: s := by
  by_cases hw : what = []
  · subst hw
    unfold containSubstr strFind
    rw [Nat.sub_zero, strFindFrom, if_pos (by cases s.drop 0 <;> rfl)]
    exact ⟨fun _ => List.nil_infix, fun _ => rfl⟩
  · exact strFind_zero_infix s what hw

/-- C31: `shorten_string` removes the last `len` characters, and throws if there are fewer. -/
theorem C31_shorten_string (s : List Char) (len : Nat) :
    (s.length < len → shortenString s len = .throws) ∧
    (len ≤ s.length → ∃ r t, shortenString s len = .ok r ∧ s = r ++ t ∧ t.length = len) := by
  refine ⟨fun h => by rw [shortenString, if_pos h], fun h => ?_⟩
  refine ⟨s.take (s.length - len), s.drop (s.length - len), by rw [shortenString, if_neg (by omega)], (List.take_append_drop _ _).symm, ?_⟩
  rw [List.length_drop]; omega

example : replaceAll 10 "aXXbXX".toList "XX".toList "X".toList = some "aXbX".toList ∧
    splitStr 20 ",a,,bc,".toList ",".toList = some ["a".toList, "bc".toList] ∧
    truncStr "abcdefghij".toList 7 = .ok "ab ...".toList ∧ truncStrStart "abcdefghij".toList 7 = .ok "... hij".toList ∧
    IsSplit [','] [',', 'a'] [[], ['a']] := by
  refine ⟨by decide, by decide, by decide, by decide, ⟨by decide, ?_, ?_, by simp⟩⟩
  · intro p hp q hq
    simp at hp
    subst hp
    cases hq
  · intro p hp
    simp at hp
    subst hp
    decide

end Shamrock
