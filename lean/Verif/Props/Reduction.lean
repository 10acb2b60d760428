import Verif.Model.Reduction
import Verif.Proof.KarrasTree
import Verif.Props.Scan
import Verif.Props.Karras
/-! Theorems on the tree reduction: C07. -/
namespace Shamrock

section
variable {w n : Nat} {m : Nat → BitVec w}

/-- Entry `i` of the table is set: a cell starts at `i`. -/
def Flag (tab : List W32) (i : Nat) : Prop := ∃ f, tab[i]? = some f ∧ f ≠ 0#32

/-- `b` is the last cell start before `i`. -/
def IsPrev (tab : List W32) (i b : Nat) : Prop := b < i ∧ Flag tab b ∧ ∀ j, b < j → j < i → ¬ Flag tab j

/-- `c` is the first cell start after `i`, or the end of the array. -/
def IsNext (n : Nat) (tab : List W32) (i c : Nat) : Prop := i < c ∧ c ≤ n ∧ (c < n → Flag tab c) ∧ ∀ j, i < j → j < c → ¬ Flag tab j

theorem not_flag {tab : List W32} {i : Nat} {f : W32} (h : tab[i]? = some f) (h0 : f = 0#32) : ¬ Flag tab i := by
  rintro ⟨f', h1, h2⟩
  rw [h, Option.some.injEq] at h1
  exact h2 (h1 ▸ h0)

theorem beforeLoop_in (tab : List W32) (hlen : tab.length = n) (hn : n < 2 ^ 31) (h0 : Flag tab 0) : ∀ (s fuel : Nat), s < n → s < fuel →
    ∃ b, beforeLoop n tab fuel s = some b ∧ b ≤ s ∧ Flag tab b ∧ ∀ j, b < j → j ≤ s → ¬ Flag tab j := by
  intro s
  induction s with
  | zero =>
    intro fuel hs hf
    obtain ⟨g, rfl⟩ : ∃ g, fuel = g + 1 := ⟨fuel - 1, by omega⟩
    obtain ⟨f, h1, h2⟩ := h0
    refine ⟨0, ?_, Nat.le_refl _, ⟨f, h1, h2⟩, fun j a b => by omega⟩
    unfold beforeLoop
    rw [if_pos (Nat.zero_le _), h1, Option.bind_some, if_neg h2]
  | succ s ih =>
    intro fuel hs hf
    obtain ⟨g, rfl⟩ : ∃ g, fuel = g + 1 := ⟨fuel - 1, by omega⟩
    unfold beforeLoop
    rw [if_pos (by unfold u32sub; omega), List.getElem?_eq_getElem (by omega), Option.bind_some]
    by_cases hz : tab[s + 1] = 0#32
    · rw [if_pos hz, show u32sub (s + 1) 1 = s by unfold u32sub; omega]
      obtain ⟨b, h1, h2, h3, h4⟩ := ih g (by omega) (by omega)
      refine ⟨b, h1, by omega, h3, ?_⟩
      intro j a c
      by_cases hj : j = s + 1
      · subst hj; exact not_flag (List.getElem?_eq_getElem (by omega)) hz
      · exact h4 j a (by omega)
    · rw [if_neg hz]
      exact ⟨s + 1, rfl, Nat.le_refl _, ⟨_, List.getElem?_eq_getElem (by omega), hz⟩, fun j a b => by omega⟩

theorem beforeLoop_out (tab : List W32) (b : Nat) (fuel : Nat) (hf : 0 < fuel) (hb : u32sub n 1 < b) : beforeLoop n tab fuel b = some b := by
  obtain ⟨g, rfl⟩ : ∃ g, fuel = g + 1 := ⟨fuel - 1, by omega⟩
  unfold beforeLoop
  rw [if_neg (by omega)]

theorem nextLoop_spec (tab : List W32) (hlen : tab.length = n) (hn : n < 2 ^ 31) (hn0 : 0 < n) : ∀ (k s fuel : Nat), s + k = n → k < fuel →
    ∃ c, nextLoop n tab fuel s = some c ∧ s ≤ c ∧ c ≤ n ∧ (c < n → Flag tab c) ∧ ∀ j, s ≤ j → j < c → ¬ Flag tab j := by
  intro k
  induction k with
  | zero =>
    intro s fuel hs hf
    obtain ⟨g, rfl⟩ : ∃ g, fuel = g + 1 := ⟨fuel - 1, by omega⟩
    refine ⟨s, ?_, Nat.le_refl _, by omega, fun h => by omega, fun j a b => by omega⟩
    unfold nextLoop
    rw [if_neg (by unfold u32sub; omega)]
  | succ k ih =>
    intro s fuel hs hf
    obtain ⟨g, rfl⟩ : ∃ g, fuel = g + 1 := ⟨fuel - 1, by omega⟩
    unfold nextLoop
    rw [if_pos (by unfold u32sub; omega), List.getElem?_eq_getElem (by omega), Option.bind_some]
    by_cases hz : tab[s] = 0#32
    · rw [if_pos hz, show u32add s 1 = s + 1 by unfold u32add; omega]
      obtain ⟨c, h1, h2, h3, h4, h5⟩ := ih (s + 1) g (by omega) (by omega)
      refine ⟨c, h1, by omega, h3, h4, ?_⟩
      intro j a b
      by_cases hj : j = s
      · subst hj; exact not_flag (List.getElem?_eq_getElem (by omega)) hz
      · exact h5 j (by omega) b
    · rw [if_neg hz]
      exact ⟨s, rfl, Nat.le_refl _, by omega, fun _ => ⟨_, List.getElem?_eq_getElem (by omega), hz⟩, fun j a b => by omega⟩

theorem isNext_of_isPrev {tab : List W32} {i b : Nat} (hi : i < n) (hf : Flag tab i) (h : IsPrev tab i b) : IsNext n tab b i :=
  ⟨h.1, by omega, fun _ => hf, h.2.2⟩

theorem next_unique {tab : List W32} {i c c' : Nat} (h1 : IsNext n tab i c) (h2 : IsNext n tab i c') : c = c' := by
  rcases Nat.lt_trichotomy c c' with h | h | h
  · exact absurd (h1.2.2.1 (by have := h2.2.1; omega)) (h2.2.2.2 c h1.1 h)
  · exact h
  · exact absurd (h2.2.2.1 (by have := h1.2.1; omega)) (h1.2.2.2 c' h2.1 h)

theorem prev_unique {tab : List W32} {i c c' : Nat} (h1 : IsPrev tab i c) (h2 : IsPrev tab i c') : c = c' := by
  rcases Nat.lt_trichotomy c c' with h | h | h
  · exact absurd h2.2.1 (h1.2.2 c' h h2.1)
  · exact h
  · exact absurd h1.2.1 (h2.2.2 c h h1.1)

theorem deltaU32_in (hn : n < 2 ^ 31) (x y : Nat) (hx : x < n) (hy : y < 2 ^ 31) : deltaU32 n m x y = some (karrasDelta n m x y) := by
  unfold deltaU32
  simp only
  rw [wrapI32_id (x := (x : Int)) (by omega) (by omega), wrapI32_id (x := (y : Int)) (by omega) (by omega)]
  by_cases h : (y : Int) < 0 ∨ (n : Int) - 1 < y
  · rw [if_pos h, delta_out _ _ h]
  · rw [if_neg h, if_pos (by omega), Int.toNat_natCast]

theorem deltaU32_out (x y : Nat) (hy : 2 ^ 31 ≤ y) (hy' : y < 2 ^ 32) : deltaU32 n m x y = some (-1) := by
  unfold deltaU32
  simp only
  rw [if_pos]
  left
  unfold wrapI32
  omega

/-- A table that describes complete radix cells. -/
structure RInv (n : Nat) (m : Nat → BitVec w) (tab : List W32) : Prop where
  len : tab.length = n
  bin : Binary tab
  zero : Flag tab 0
  diff : ∀ i, 0 < i → Flag tab i → m (i - 1) ≠ m i
  compact : ∀ a c, Flag tab a → IsNext n tab a c → ∀ k : Nat, a < k → k < c → kB n m a < kB n m k ∧ kB n m c < kB n m k

theorem eq_of_lt_iff {x y : Int} (hx : -1 ≤ x) (hy : -1 ≤ y) (h : ∀ t : Int, -1 ≤ t → (t < x ↔ t < y)) : x = y := by
  rcases Int.lt_trichotomy x y with h1 | h1 | h1
  · have := (h x hx).2 h1; omega
  · exact h1
  · have := (h y hy).1 h1; omega

theorem delta_next {tab : List W32} (hs : CodesMono n m) (H : RInv n m tab) (i c : Nat) (hi : i < n) (hf : Flag tab i)
    (hc : IsNext n tab i c) : karrasDelta n m i c = kB n m c := by
  by_cases hcn : c < n
  · apply eq_of_lt_iff
    · rw [delta_in _ _ hcn]; omega
    · exact kB_ge _
    · intro t ht
      rw [delta_right_m hs i hi t ht c (by have := hc.1; omega)]
      constructor
      · intro h; exact h c (by have := hc.1; omega) (by omega)
      · intro h k h1 h2
        by_cases hk : k = c
        · rw [hk]; exact h
        · have := (H.compact i c hf hc k.toNat (by omega) (by omega)).2
          rw [show ((k.toNat : Nat) : Int) = k by omega] at this
          omega
  · rw [delta_out _ _ (by omega), kB_out _ (by omega)]

theorem delta_prev {tab : List W32} (hs : CodesMono n m) (H : RInv n m tab) (i b : Nat) (hi : i < n) (hf : Flag tab i)
    (hb : IsPrev tab i b) : karrasDelta n m i b = kB n m i := by
  have hb1 := hb.1
  apply eq_of_lt_iff
  · rw [delta_in _ _ (by omega)]; omega
  · exact kB_ge _
  · intro t ht
    rw [delta_left_m hs i hi t ht b (by omega)]
    constructor
    · intro h; exact h i (by omega) (by omega)
    · intro h k h1 h2
      by_cases hk : k = i
      · rw [hk]; exact h
      · have := (H.compact b i hb.2.1 (isNext_of_isPrev hi hf hb) k.toNat (by omega) (by omega)).2
        rw [show ((k.toNat : Nat) : Int) = k by omega] at this
        omega

theorem u32sub_zero : u32sub 0 1 = 4294967295 := by unfold u32sub; omega

theorem u32sub_max : u32sub 4294967295 1 = 4294967294 := by unfold u32sub; omega

attribute [local irreducible] kB karrasDelta deltaU32 beforeLoop nextLoop u32sub u32add wrapI32

theorem reducItem_eq {tab : List W32} {i b1 b2 nx : Nat} {d0 dm dmm : Int} {f : W32}
    (h1 : beforeLoop n tab (n + 1) (u32sub i 1) = some b1) (h2 : beforeLoop n tab (n + 1) (u32sub b1 1) = some b2)
    (h3 : nextLoop n tab (n + 1) (u32add i 1) = some nx) (h4 : deltaU32 n m i nx = some d0) (h5 : deltaU32 n m i b1 = some dm)
    (h6 : deltaU32 n m b1 b2 = some dmm) (h7 : tab[i]? = some f) :
    reducItem n m tab i = some (if ¬ (d0 < dm ∧ dmm < dm) ∧ f ≠ 0#32 then 1#32 else 0#32) := by
  unfold reducItem
  refine Option.bind_eq_some_iff.2 ⟨b1, h1, ?_⟩
  refine Option.bind_eq_some_iff.2 ⟨b2, h2, ?_⟩
  refine Option.bind_eq_some_iff.2 ⟨nx, h3, ?_⟩
  refine Option.bind_eq_some_iff.2 ⟨d0, h4, ?_⟩
  refine Option.bind_eq_some_iff.2 ⟨dm, h5, ?_⟩
  refine Option.bind_eq_some_iff.2 ⟨dmm, h6, ?_⟩
  exact Option.bind_eq_some_iff.2 ⟨f, h7, rfl⟩


/-- What one work item of a pass computes. -/
theorem reducItem_spec {tab : List W32} (hs : CodesMono n m) (hn : n < 2 ^ 31) (H : RInv n m tab) (i : Nat) (hi : i < n) :
    ∃ v, reducItem n m tab i = some v ∧ (v = 0#32 ∨ v = 1#32) ∧
      (v ≠ 0#32 ↔ Flag tab i ∧ ∀ b c, IsPrev tab i b → IsNext n tab i c → ¬ (kB n m c < kB n m i ∧ kB n m b < kB n m i)) := by
  have hlen := H.len
  obtain ⟨c, c1, c2, c3, c4, c5⟩ := nextLoop_spec tab hlen hn (by omega) (n - (i + 1)) (i + 1) (n + 1) (by omega) (by omega)
  have hnext : IsNext n tab i c := ⟨by omega, c3, c4, fun j a b => c5 j (by omega) b⟩
  have hadd : u32add i 1 = i + 1 := by unfold u32add; omega
  have hget : tab[i]? = some (tab[i]'(by omega)) := List.getElem?_eq_getElem (by omega)
  have hflag : ∀ f : W32, tab[i]? = some f → (Flag tab i ↔ f ≠ 0#32) := by
    intro f hf
    constructor
    · rintro ⟨f', h1, h2⟩; rw [hf, Option.some.injEq] at h1; rw [h1]; exact h2
    · intro h; exact ⟨f, hf, h⟩
  have one : (1#32 : W32) ≠ 0#32 := by decide
  by_cases h0 : i = 0
  · subst h0
    have hsn : u32sub n 1 < 4294967294 := by unfold u32sub; omega
    have e1 := beforeLoop_out (n := n) tab 4294967295 (n + 1) (by omega) (by omega)
    have e2 := beforeLoop_out (n := n) tab 4294967294 (n + 1) (by omega) (by omega)
    have d0 := deltaU32_in (m := m) hn 0 c hi (by omega)
    have dm := deltaU32_out (n := n) (m := m) 0 4294967295 (by omega) (by omega)
    have dmm := deltaU32_out (n := n) (m := m) 4294967295 4294967294 (by omega) (by omega)
    obtain ⟨f, z1, z2⟩ := H.zero
    refine ⟨1#32, ?_, Or.inr rfl, ?_⟩
    · rw [reducItem_eq (b1 := 4294967295) (b2 := 4294967294) (by rw [u32sub_zero]; exact e1) (by rw [u32sub_max]; exact e2)
        (by rw [hadd]; exact c1) d0 dm dmm z1, if_pos ⟨fun h => by omega, z2⟩]
    · constructor
      · intro _; exact ⟨⟨f, z1, z2⟩, fun b c hb => by have := hb.1; omega⟩
      · intro _; exact one
  · have hsub : u32sub i 1 = i - 1 := by unfold u32sub; omega
    obtain ⟨b, b1, b2, b3, b4⟩ := beforeLoop_in tab hlen hn H.zero (i - 1) (n + 1) (by omega) (by omega)
    have hprev : IsPrev tab i b := ⟨by omega, b3, fun j a c => b4 j a (by omega)⟩
    have dn0 := deltaU32_in (m := m) hn i c hi (by omega)
    have dm := deltaU32_in (m := m) hn i b hi (by omega)
    -- the second search
    have h2 : ∃ b2, beforeLoop n tab (n + 1) (u32sub b 1) = some b2 ∧ deltaU32 n m b b2 = some (kB n m b) := by
      by_cases hb0 : b = 0
      · subst hb0
        refine ⟨4294967295, ?_, ?_⟩
        · rw [u32sub_zero]
          exact beforeLoop_out tab _ _ (by omega) (by unfold u32sub; omega)
        · rw [deltaU32_out _ _ (by omega) (by omega), kB_out _ (by omega)]
      · obtain ⟨b2, q1, q2, q3, q4⟩ := beforeLoop_in tab hlen hn H.zero (b - 1) (n + 1) (by omega) (by omega)
        refine ⟨b2, ?_, ?_⟩
        · rw [show u32sub b 1 = b - 1 by unfold u32sub; omega]; exact q1
        · rw [deltaU32_in hn b b2 (by omega) (by omega),
            delta_prev hs H b b2 (by omega) b3 ⟨by omega, q3, fun j a c => q4 j a (by omega)⟩]
    obtain ⟨b2, q1, q2⟩ := h2
    have hval : reducItem n m tab i = some (if ¬ (karrasDelta n m i c < karrasDelta n m i b ∧ kB n m b < karrasDelta n m i b) ∧
        tab[i]'(by omega) ≠ 0#32 then 1#32 else 0#32) := by
      exact reducItem_eq (by rw [hsub]; exact b1) q1 (by rw [hadd]; exact c1) dn0 dm q2 hget
    refine ⟨_, hval, ?_, ?_⟩
    · split
      · exact Or.inr rfl
      · exact Or.inl rfl
    · rw [hflag _ hget]
      by_cases hf : tab[i]'(by omega) ≠ 0#32
      · have hF : Flag tab i := (hflag _ hget).2 hf
        rw [delta_next hs H i c hi hF hnext, delta_prev hs H i b hi hF hprev]
        constructor
        · intro hv
          refine ⟨hf, ?_⟩
          intro b' c' hb' hc'
          rw [prev_unique hb' hprev, next_unique hc' hnext]
          intro hcon
          rw [if_neg (fun h => h.1 hcon)] at hv
          exact hv rfl
        · rintro ⟨_, h⟩
          rw [if_pos ⟨h b c hprev hnext, hf⟩]
          exact one
      · rw [if_neg (fun h => hf h.2)]
        constructor
        · intro h; exact absurd rfl h
        · intro h; exact absurd h.1 hf

/-- The base table. -/
theorem splitTable_inv (hs : CodesMono n m) (hn : 0 < n) : RInv n m (splitTable n m) := by
  have hget : ∀ i : Nat, i < n → (splitTable n m)[i]? = some (if 0 < i then (if m (i - 1) ≠ m i then 1#32 else 0#32) else 1#32) := by
    intro i hi
    unfold splitTable
    rw [List.getElem?_map, List.getElem?_range hi]; rfl
  have hlen : (splitTable n m).length = n := by unfold splitTable; rw [List.length_map, List.length_range]
  have hflag : ∀ i, i < n → (Flag (splitTable n m) i ↔ i = 0 ∨ m (i - 1) ≠ m i) := by
    intro i hi
    unfold Flag
    rw [hget i hi]
    constructor
    · rintro ⟨f, h1, h2⟩
      rw [Option.some.injEq] at h1
      by_cases h0 : i = 0
      · exact Or.inl h0
      · right
        intro he
        rw [if_pos (by omega), if_neg (fun h => h he)] at h1
        exact h2 h1.symm
    · rintro (h | h)
      · rw [if_neg (by omega)]; exact ⟨_, rfl, by decide⟩
      · by_cases h0 : 0 < i
        · rw [if_pos h0, if_pos h]; exact ⟨_, rfl, by decide⟩
        · rw [if_neg h0]; exact ⟨_, rfl, by decide⟩
  have hlt : ∀ i, Flag (splitTable n m) i → i < n := by
    rintro i ⟨f, h1, _⟩
    by_contra hc
    rw [List.getElem?_eq_none (by omega)] at h1
    cases h1
  refine ⟨hlen, ?_, (hflag 0 hn).2 (Or.inl rfl), ?_, ?_⟩
  · intro f hf
    unfold splitTable at hf
    obtain ⟨i, _, rfl⟩ := List.mem_map.1 hf
    split
    · split
      · exact Or.inr rfl
      · exact Or.inl rfl
    · exact Or.inr rfl
  · intro i hi hf
    rcases (hflag i (hlt i hf)).1 hf with h | h
    · omega
    · exact h
  · intro a c ha hc k h1 h2
    have hkn : k < n := by have := hc.2.1; omega
    have hk : m (k - 1) = m k := by
      by_contra hne
      exact hc.2.2.2 k h1 h2 ((hflag k hkn).2 (Or.inr hne))
    have hkB : kB n m k = w := by
      rw [kB_in k (by omega) hkn, delta_in _ _ hkn, hk, BitVec.xor_self]
      have h0 : clz (0#w) = w := by unfold clz; simp
      rw [h0]
    have hbound : ∀ j : Nat, (j = n ∨ Flag (splitTable n m) j) → kB n m j < w := by
      intro j hj
      by_cases hin : 1 ≤ j ∧ j < n
      · rcases hj with hj | hj
        · omega
        · rw [kB_in j hin.1 hin.2, delta_in _ _ hin.2]
          rcases (hflag j hin.2).1 hj with h | h
          · omega
          · have := clz_lt_of_ne h; omega
      · rw [kB_out _ (by omega)]; omega
    rw [hkB]
    refine ⟨hbound a (Or.inr ha), ?_⟩
    by_cases hcn : c < n
    · exact hbound c (Or.inr (hc.2.2.1 hcn))
    · exact hbound c (Or.inl (by have := hc.2.1; omega))

/-- One pass. -/
theorem reducPass_inv {tab : List W32} (hs : CodesMono n m) (hn : n < 2 ^ 31) (H : RInv n m tab) :
    ∃ tab', reducPass n m tab = some tab' ∧ RInv n m tab' ∧
      ∀ i, Flag tab' i ↔ Flag tab i ∧ ∀ b c, IsPrev tab i b → IsNext n tab i c → ¬ (kB n m c < kB n m i ∧ kB n m b < kB n m i) := by
  have hn0 : 0 < n := by
    obtain ⟨f, h1, _⟩ := H.zero
    by_contra hc
    rw [List.getElem?_eq_none (by have := H.len; omega)] at h1
    cases h1
  let g : Nat → W32 := fun i => (reducItem n m tab i).getD 0#32
  have hg : ∀ i < n, reducItem n m tab i = some (g i) := by
    intro i hi
    obtain ⟨v, h, _⟩ := reducItem_spec hs hn H i hi
    show _ = some ((reducItem n m tab i).getD _)
    rw [h]; rfl
  have hpass : reducPass n m tab = some ((List.range n).map g) := mapM_range_some n _ g hg
  have hget : ∀ i : Nat, i < n → ((List.range n).map g)[i]? = some (g i) := by
    intro i hi; rw [List.getElem?_map, List.getElem?_range hi]; rfl
  have hltT : ∀ i, Flag tab i → i < n := by
    rintro i ⟨f, h1, _⟩
    by_contra hc
    rw [List.getElem?_eq_none (by have := H.len; omega)] at h1
    cases h1
  have hflag : ∀ i, Flag ((List.range n).map g) i ↔ Flag tab i ∧
      ∀ b c, IsPrev tab i b → IsNext n tab i c → ¬ (kB n m c < kB n m i ∧ kB n m b < kB n m i) := by
    intro i
    by_cases hi : i < n
    · obtain ⟨v, h1, _, h3⟩ := reducItem_spec hs hn H i hi
      rw [hg i hi, Option.some.injEq] at h1
      rw [← h3, ← h1]
      constructor
      · rintro ⟨f, e1, e2⟩
        rw [hget i hi, Option.some.injEq] at e1
        rw [e1]; exact e2
      · intro h; exact ⟨_, hget i hi, h⟩
    · constructor
      · rintro ⟨f, e1, _⟩
        rw [List.getElem?_eq_none (by simp; omega)] at e1
        cases e1
      · rintro ⟨h, _⟩; exact absurd (hltT i h) hi
  refine ⟨_, hpass, ⟨by simp, ?_, ?_, ?_, ?_⟩, hflag⟩
  · intro f hf
    obtain ⟨i, hi, rfl⟩ := List.mem_map.1 hf
    obtain ⟨v, h1, h2, _⟩ := reducItem_spec hs hn H i (List.mem_range.1 hi)
    rw [hg i (List.mem_range.1 hi), Option.some.injEq] at h1
    rw [h1]; exact h2
  · exact (hflag 0).2 ⟨H.zero, fun b c hb => by have := hb.1; omega⟩
  · intro i hi hf
    exact H.diff i hi ((hflag i).1 hf).1
  · intro a c ha hc
    have haT := ((hflag a).1 ha).1
    have han := hltT a haT
    -- the next start in the old table
    obtain ⟨a', e1, e2, e3, e4, e5⟩ := nextLoop_spec tab H.len hn hn0 (n - (a + 1)) (a + 1) (n + 1) (by omega) (by omega)
    have hna : IsNext n tab a a' := ⟨by omega, e3, e4, fun j x y => e5 j (by omega) y⟩
    by_cases hkeep : a' = n ∨ Flag ((List.range n).map g) a'
    · have : IsNext n ((List.range n).map g) a a' := by
        refine ⟨by omega, e3, fun h => ?_, fun j x y h => e5 j (by omega) y ((hflag j).1 h).1⟩
        rcases hkeep with hk | hk
        · omega
        · exact hk
      rw [next_unique hc this]
      exact H.compact a a' haT hna
    · -- a' was removed
      have hlt : a' < n := by
        rcases Nat.lt_or_ge a' n with h | h
        · exact h
        · exact absurd (Or.inl (by omega)) hkeep
      have hFa' := e4 hlt
      have hprev : IsPrev tab a' a := ⟨by omega, haT, fun j x y => e5 j (by omega) y⟩
      have hrem : ∃ c', IsNext n tab a' c' ∧ kB n m c' < kB n m a' ∧ kB n m a < kB n m a' := by
        by_contra hno
        apply hkeep
        right
        rw [hflag]
        refine ⟨hFa', ?_⟩
        intro b c' hb hc' hcon
        rw [prev_unique hb hprev] at hcon
        exact hno ⟨c', hc', hcon⟩
      obtain ⟨c', hc', r1, r2⟩ := hrem
      have hc'keep : c' = n ∨ Flag ((List.range n).map g) c' := by
        by_cases hcn : c' = n
        · exact Or.inl hcn
        · right
          have hc'n : c' < n := by have := hc'.2.1; omega
          rw [hflag]
          refine ⟨hc'.2.2.1 hc'n, ?_⟩
          intro b d hb hd hcon
          have hpb : IsPrev tab c' a' := ⟨hc'.1, hFa', hc'.2.2.2⟩
          rw [prev_unique hb hpb] at hcon
          omega
      have hnew : IsNext n ((List.range n).map g) a c' := by
        refine ⟨by have := hc'.1; omega, hc'.2.1, fun h => ?_, fun j x y h => ?_⟩
        · rcases hc'keep with hk | hk
          · omega
          · exact hk
        · rcases Nat.lt_trichotomy j a' with hj | hj | hj
          · exact e5 j (by omega) hj ((hflag j).1 h).1
          · subst hj; exact hkeep (Or.inr h)
          · exact hc'.2.2.2 j hj y ((hflag j).1 h).1
      rw [next_unique hc hnew]
      intro k k1 k2
      rcases Nat.lt_trichotomy k a' with hk | hk | hk
      · have := H.compact a a' haT hna k k1 hk
        omega
      · subst hk; exact ⟨r2, r1⟩
      · have := H.compact a' c' hFa' hc' k hk k2
        omega

theorem reducLoop_inv (hs : CodesMono n m) (hn : n < 2 ^ 31) : ∀ (k iter : Nat) (t : List W32 × List W32),
    RInv n m (if iter % 2 = 0 then t.2 else t.1) →
    ∃ t', reducLoop n m k iter t = some t' ∧ RInv n m (if (iter + k) % 2 = 0 then t'.2 else t'.1) := by
  intro k
  induction k with
  | zero => intro iter t h; exact ⟨t, rfl, h⟩
  | succ k ih =>
    intro iter t h
    unfold reducLoop
    by_cases he : iter % 2 = 0
    · rw [if_pos he] at h ⊢
      obtain ⟨r, h1, h2, _⟩ := reducPass_inv hs hn h
      rw [h1, Option.bind_some]
      have := ih (iter + 1) (r, t.2) (by rw [if_neg (by omega)]; exact h2)
      rw [show iter + 1 + k = iter + (k + 1) by omega] at this
      exact this
    · rw [if_neg he] at h ⊢
      obtain ⟨r, h1, h2, _⟩ := reducPass_inv hs hn h
      rw [h1, Option.bind_some]
      have := ih (iter + 1) (t.1, r) (by rw [if_pos (by omega)]; exact h2)
      rw [show iter + 1 + k = iter + (k + 1) by omega] at this
      exact this

theorem finalTable_inv (hs : CodesMono n m) (hn0 : 0 < n) (hn : n < 2 ^ 31) (level : Nat) (junk : List W32) :
    ∃ tab, finalTable n m level junk = some tab ∧ RInv n m tab := by
  obtain ⟨t', h1, h2⟩ := reducLoop_inv hs hn level 1 (splitTable n m, junk) (by rw [if_neg (by omega)]; exact splitTable_inv hs hn0)
  refine ⟨_, by unfold finalTable; rw [h1, Option.map_some], ?_⟩
  by_cases he : level % 2 = 0
  · rw [if_pos he]; rw [if_neg (by omega)] at h2; exact h2
  · rw [if_neg he]; rw [if_pos (by omega)] at h2; exact h2

theorem flag_lt {tab : List W32} {i : Nat} (h : Flag tab i) : i < tab.length := by
  obtain ⟨f, h1, _⟩ := h
  exact (List.getElem?_eq_some_iff.1 h1).1

/-- Consecutive entries of the index map are consecutive cell starts, the last one the end of the array. -/
theorem starts_next {tab : List W32} (L : List Nat) (hlen : tab.length = n) (hp : L.Pairwise (· < ·)) (hmem : ∀ i, i ∈ L ↔ Flag tab i) (k : Nat)
    (hk : k < L.length) : ∃ c, (L ++ [n, 0])[k + 1]? = some c ∧ IsNext n tab (L[k]) c := by
  have hkn : L[k] < n := by have := flag_lt ((hmem _).1 (List.getElem_mem hk)); omega
  have hpw := List.pairwise_iff_getElem.1 hp
  have hidx : ∀ j, Flag tab j → L[k] < j → ∃ q, ∃ hq : q < L.length, k < q ∧ L[q] = j := by
    intro j hj hlt
    obtain ⟨q, hq, rfl⟩ := List.getElem_of_mem ((hmem j).2 hj)
    refine ⟨q, hq, ?_, rfl⟩
    rcases Nat.lt_trichotomy q k with h | h | h
    · have := hpw q k hq hk h; omega
    · subst h; omega
    · exact h
  by_cases hl : k + 1 < L.length
  · refine ⟨L[k + 1], by rw [List.getElem?_append_left hl, List.getElem?_eq_getElem hl], hpw k (k + 1) hk hl (by omega), ?_, ?_, ?_⟩
    · have := flag_lt ((hmem _).1 (List.getElem_mem hl)); omega
    · intro _; exact (hmem _).1 (List.getElem_mem hl)
    · intro j j1 j2 hj
      obtain ⟨q, hq, h1, rfl⟩ := hidx j hj j1
      by_cases hqe : q = k + 1
      · subst hqe; omega
      · have := hpw (k + 1) q hl hq (by omega); omega
  · refine ⟨n, ?_, hkn, Nat.le_refl _, fun h => by omega, ?_⟩
    · rw [List.getElem?_append_right (by omega), show k + 1 - L.length = 0 by omega]; rfl
    · intro j j1 j2 hj
      obtain ⟨q, hq, h1, rfl⟩ := hidx j hj j1
      omega

/-- The cells of a table are complete radix cells. -/
theorem cell_radix {tab : List W32} (hs : CodesMono n m) (H : RInv n m tab) (a c : Nat) (ha : Flag tab a) (hc : IsNext n tab a c)
    (p q r : Nat) (hp1 : a ≤ p) (hp2 : p < c) (hq1 : a ≤ q) (hq2 : q < c) (hr : r < n) (hrc : r < a ∨ c ≤ r) :
    clz (m p ^^^ m r) < clz (m p ^^^ m q) := by
  have hcn := hc.2.1
  have han : a < n := by have := hc.1; omega
  have hcmp := H.compact a c ha hc
  -- the boundary on the side of `r`
  have hout : ∃ t : Nat, (t = a ∨ t = c) ∧ 0 < t ∧ t < n ∧ karrasDelta n m p r ≤ kB n m t := by
    rcases hrc with h | h
    · refine ⟨a, Or.inl rfl, by omega, han, ?_⟩
      by_contra hcon
      have := (delta_left_m hs p (by omega) (kB n m a) (kB_ge _) r (by omega)).1 (by omega) a (by omega) (by omega)
      omega
    · refine ⟨c, Or.inr rfl, by omega, by omega, ?_⟩
      by_contra hcon
      have := (delta_right_m hs p (by omega) (kB n m c) (kB_ge _) r (by omega)).1 (by omega) c (by omega) (by omega)
      omega
  obtain ⟨t, ht, ht0, htn, hle⟩ := hout
  have hft : Flag tab t := by
    rcases ht with h | h
    · rw [h]; exact ha
    · rw [h]; exact hc.2.2.1 (by omega)
  have htw : kB n m t < w := by
    rw [kB_in t ht0 htn, delta_in _ _ htn]
    have := clz_lt_of_ne (H.diff t ht0 hft)
    omega
  have hk : ∀ k : Nat, a < k → k < c → kB n m t < kB n m k := by
    intro k k1 k2
    have := hcmp k k1 k2
    rcases ht with h | h <;> rw [h]
    · exact this.1
    · exact this.2
  have hin : kB n m t < karrasDelta n m p q := by
    rcases Nat.lt_trichotomy p q with h | h | h
    · rw [delta_right_m hs p (by omega) _ (kB_ge _) q (by omega)]
      intro k k1 k2
      have := hk k.toNat (by omega) (by omega)
      rw [show ((k.toNat : Nat) : Int) = k by omega] at this
      exact this
    · subst h
      rw [delta_in _ _ (by omega), BitVec.xor_self, show clz (0#w) = w by unfold clz; simp]
      exact htw
    · rw [delta_left_m hs p (by omega) _ (kB_ge _) q (by omega)]
      intro k k1 k2
      have := hk k.toNat (by omega) (by omega)
      rw [show ((k.toNat : Nat) : Int) = k by omega] at this
      exact this
  rw [delta_in _ _ hr] at hle
  rw [delta_in _ _ (by omega)] at hin
  omega

/-- Particle `p` (index in the sorted list) is in cell `k` of the index map: `map[k] ≤ p < map[k+1]`. -/
def InRCell (map : List Nat) (k p : Nat) : Prop := ∃ a c, map[k]? = some a ∧ map[k + 1]? = some c ∧ a ≤ p ∧ p < c

theorem sorted_cover (L : List Nat) (hp : L.Pairwise (· < ·)) (h0 : L[0]? = some 0) (e : Nat) (he : ∀ x ∈ L, x < e) (p : Nat) (hpe : p < e) :
    ∃ k a c, k < L.length ∧ (L ++ [e, 0])[k]? = some a ∧ (L ++ [e, 0])[k + 1]? = some c ∧ a ≤ p ∧ p < c := by
  have hl : 0 < L.length := (List.getElem?_eq_some_iff.1 h0).1
  -- the last start that is at most p
  have : ∀ d : Nat, d < L.length → (∀ k (hk : k < L.length), L.length - d ≤ k + 0 → p < L[k]) ∨
      ∃ k, ∃ hk : k < L.length, L[k] ≤ p ∧ ∀ j (hj : j < L.length), k < j → p < L[j] := by
    intro d
    induction d with
    | zero => intro _; left; intro k hk h; omega
    | succ d ih =>
      intro hd
      rcases ih (by omega) with h | h
      · by_cases hx : p < L[L.length - d - 1]'(by omega)
        · left
          intro k hk hk2
          by_cases hke : k = L.length - d - 1
          · subst hke; exact hx
          · exact h k hk (by omega)
        · right
          exact ⟨L.length - d - 1, by omega, by omega, fun j hj hlt => h j hj (by omega)⟩
      · exact Or.inr h
  have hz : L[0] = 0 := by rw [List.getElem?_eq_getElem hl, Option.some.injEq] at h0; exact h0
  have key : ∃ k, ∃ hk : k < L.length, L[k] ≤ p ∧ ∀ j (hj : j < L.length), k < j → p < L[j] := by
    rcases this (L.length - 1) (by omega) with h | h
    · exact ⟨0, hl, by omega, fun j hj hlt => h j hj (by omega)⟩
    · exact h
  obtain ⟨k, hk, h1, h2⟩ := key
  refine ⟨k, L[k], ?_⟩
  by_cases hkl : k + 1 < L.length
  · exact ⟨L[k + 1], hk, by rw [List.getElem?_append_left hk, List.getElem?_eq_getElem hk],
      by rw [List.getElem?_append_left hkl, List.getElem?_eq_getElem hkl], h1, h2 (k + 1) hkl (by omega)⟩
  · refine ⟨e, hk, by rw [List.getElem?_append_left hk, List.getElem?_eq_getElem hk], ?_, h1, hpe⟩
    rw [List.getElem?_append_right (by omega), show k + 1 - L.length = 0 by omega]; rfl

/-- C07. For every sorted code array (repeated codes allowed), every reduction level, whatever the uninitialised buffers contain and in
whatever order the compaction work items run: the reduction succeeds with `cnt ≥ 1` cells; the map starts at 0 and ends at `n`; every cell
is a non empty range; every particle is in exactly one cell; the code kept for a cell is that of its first particle and these codes
strictly increase; and each cell is a complete radix cell: two of its codes always share a longer prefix than one of them with a code
outside the cell. -/
theorem C07_reduction (hs : ∀ i j, i < j → j < n → (m i).toNat ≤ (m j).toNat) (hn0 : 0 < n) (hn : n < 2 ^ 31) (level : Nat)
    (junk : List W32) (garbage : Nat → Nat) (order : List Nat) (hord : order.Perm (List.range n)) :
    ∃ (map : List Nat) (cnt : Nat) (codes : List (BitVec w)),
      reduceMortonSet n m level junk garbage order = some (map, cnt, codes) ∧ map.length = cnt + 2 ∧ 1 ≤ cnt ∧
      map[0]? = some 0 ∧ map[cnt]? = some n ∧
      (∀ k < cnt, ∃ a c, map[k]? = some a ∧ map[k + 1]? = some c ∧ a < c ∧ c ≤ n ∧ codes[k]? = some (m a)) ∧
      (∀ p < n, ∃ k < cnt, InRCell map k p ∧ ∀ k' < cnt, InRCell map k' p → k' = k) ∧
      codes.length = cnt ∧ (∀ i j (hi : i < codes.length) (hj : j < codes.length), i < j → (codes[i]).toNat < (codes[j]).toNat) ∧
      (∀ k < cnt, ∀ p q r, p < n → q < n → r < n → InRCell map k p → InRCell map k q → ¬ InRCell map k r →
        clz (m p ^^^ m r) < clz (m p ^^^ m q)) := by
  have hs' : CodesMono n m := hs
  obtain ⟨tab, ht, H⟩ := finalTable_inv hs' hn0 hn level junk
  have hlen := H.len
  have hcomp := C15_stream_compact tab H.bin (by omega) garbage order (by rw [hlen]; exact hord)
  obtain ⟨sp1, sp2⟩ := C15_spec tab
  generalize hL : flaggedIdx tab tab.length = L at *
  have hmem : ∀ i, i ∈ L ↔ Flag tab i := sp2
  have hltn : ∀ x ∈ L, x < n := fun x hx => by have := flag_lt ((hmem x).1 hx); omega
  have hpw := List.pairwise_iff_getElem.1 sp1
  have hL0 : 0 < L.length := List.length_pos_of_mem ((hmem 0).2 H.zero)
  have hz : L[0]? = some 0 := by
    obtain ⟨q, hq, h⟩ := List.getElem_of_mem ((hmem 0).2 H.zero)
    by_cases hq0 : q = 0
    · subst hq0; rw [List.getElem?_eq_getElem hq, h]
    · have := hpw 0 q hL0 hq (by omega); omega
  have hleft : ∀ k (hk : k < L.length), (L ++ [n, 0])[k]? = some L[k] := fun k hk => by
    rw [List.getElem?_append_left hk, List.getElem?_eq_getElem hk]
  have hcodes : (List.range L.length).mapM (fun i => ((L ++ [n, 0])[i]?).bind fun a => if a < n then some (m a) else none) =
      some ((List.range L.length).map fun i => m (L[i]?.getD 0)) := by
    apply mapM_range_some
    intro i hi
    rw [hleft i hi, Option.bind_some, if_pos (hltn _ (List.getElem_mem hi)), List.getElem?_eq_getElem hi]; rfl
  have hred : reduceMortonSet n m level junk garbage order =
      some (L ++ [n, 0], L.length, (List.range L.length).map fun i => m (L[i]?.getD 0)) := by
    unfold reduceMortonSet
    refine Option.bind_eq_some_iff.2 ⟨(L ++ [n, 0], L.length), ?_, ?_⟩
    · unfold reductionAlg
      refine Option.bind_eq_some_iff.2 ⟨tab, ht, ?_⟩
      exact Option.bind_eq_some_iff.2 ⟨L, hcomp, rfl⟩
    · rw [if_neg (by show ¬ L.length = 0; omega)]
      exact Option.bind_eq_some_iff.2 ⟨_, hcodes, rfl⟩
  have hcode : ∀ k (hk : k < L.length), ((List.range L.length).map fun i => m (L[i]?.getD 0))[k]? = some (m L[k]) := by
    intro k hk
    rw [List.getElem?_map, List.getElem?_range hk, Option.map_some, List.getElem?_eq_getElem hk]; rfl
  have hcell : ∀ k (hk : k < L.length), ∃ c, (L ++ [n, 0])[k + 1]? = some c ∧ IsNext n tab L[k] c :=
    fun k hk => starts_next L hlen sp1 hmem k hk
  refine ⟨_, _, _, hred, by simp, hL0, ?_, ?_, ?_, ?_, by simp, ?_, ?_⟩
  · rw [List.getElem?_append_left hL0]; exact hz
  · rw [List.getElem?_append_right (Nat.le_refl _), Nat.sub_self]; rfl
  · intro k hk
    obtain ⟨c, h1, h2⟩ := hcell k hk
    exact ⟨L[k], c, hleft k hk, h1, h2.1, h2.2.1, hcode k hk⟩
  · intro p hp
    obtain ⟨k, a, c, hk, h1, h2, h3, h4⟩ := sorted_cover L sp1 hz n hltn p hp
    refine ⟨k, hk, ⟨a, c, h1, h2, h3, h4⟩, ?_⟩
    rintro k' hk' ⟨a', c', g1, g2, g3, g4⟩
    rw [hleft k hk, Option.some.injEq] at h1
    rw [hleft k' hk', Option.some.injEq] at g1
    rcases Nat.lt_trichotomy k' k with h | h | h
    · have : c' ≤ L[k] := by
        rw [hleft (k' + 1) (by omega), Option.some.injEq] at g2
        by_cases he : k' + 1 = k
        · subst he; omega
        · have := hpw (k' + 1) k (by omega) hk (by omega); omega
      omega
    · exact h
    · have : c ≤ L[k'] := by
        rw [hleft (k + 1) (by omega), Option.some.injEq] at h2
        by_cases he : k + 1 = k'
        · subst he; omega
        · have := hpw (k + 1) k' (by omega) hk' (by omega); omega
      omega
  · intro i j hi hj hij
    rw [List.length_map, List.length_range] at hi hj
    have e1 := hcode i hi
    have e2 := hcode j hj
    rw [List.getElem?_eq_getElem (by simp [hi]), Option.some.injEq] at e1
    rw [List.getElem?_eq_getElem (by simp [hj]), Option.some.injEq] at e2
    rw [e1, e2]
    have hlt := hpw i j hi hj hij
    have hjn := hltn _ (List.getElem_mem hj)
    have hd := H.diff L[j] (by omega) ((hmem _).1 (List.getElem_mem hj))
    have h1 : (m L[i]).toNat ≤ (m (L[j] - 1)).toNat := by
      by_cases he : L[i] = L[j] - 1
      · rw [he]
      · exact hs _ _ (by omega) (by omega)
    have h2 := hs (L[j] - 1) L[j] (by omega) hjn
    have h3 : (m (L[j] - 1)).toNat ≠ (m L[j]).toNat := fun h => hd (BitVec.eq_of_toNat_eq h)
    omega
  · rintro k hk p q r hp hq hr ⟨a, c, p1, p2, p3, p4⟩ ⟨a', c', q1, q2, q3, q4⟩ hnr
    rw [p1, Option.some.injEq] at q1
    rw [p2, Option.some.injEq] at q2
    subst q1 q2
    obtain ⟨c2, h1, h2⟩ := hcell k hk
    rw [p2, Option.some.injEq] at h1
    rw [hleft k hk, Option.some.injEq] at p1
    subst h1 p1
    refine cell_radix hs' H _ c ((hmem _).1 (List.getElem_mem hk)) h2 p q r p3 p4 q3 q4 hr ?_
    by_contra hcon
    exact hnr ⟨_, c, hleft k hk, p2, by omega, by omega⟩

/-- C07. Particles of equal code are never separated. -/
theorem C07_equal_codes_together (hs : ∀ i j, i < j → j < n → (m i).toNat ≤ (m j).toNat) (hn0 : 0 < n) (hn : n < 2 ^ 31) (level : Nat)
    (junk : List W32) (garbage : Nat → Nat) (order : List Nat) (hord : order.Perm (List.range n)) (map : List Nat) (cnt : Nat)
    (codes : List (BitVec w)) (hr : reduceMortonSet n m level junk garbage order = some (map, cnt, codes)) (k p q : Nat) (hk : k < cnt)
    (hp : p < n) (hq : q < n) (he : m p = m q) (hpk : InRCell map k p) : InRCell map k q := by
  obtain ⟨map', cnt', codes', h1, _, _, _, _, _, _, _, _, h⟩ := C07_reduction hs hn0 hn level junk garbage order hord
  rw [hr] at h1
  obtain ⟨rfl, rfl, rfl⟩ : map = map' ∧ cnt = cnt' ∧ codes = codes' := by
    simp only [Option.some.injEq, Prod.mk.injEq] at h1; exact h1
  by_contra hc
  have := h k hk p p q hp hp hq hpk hpk hc
  rw [← he] at this
  omega

theorem reducLoop_snoc : ∀ (k iter : Nat) (t : List W32 × List W32), reducLoop n m (k + 1) iter t =
    (reducLoop n m k iter t).bind fun t' => if (iter + k) % 2 = 0 then (reducPass n m t'.2).map fun r => (r, t'.2)
      else (reducPass n m t'.1).map fun r => (t'.1, r) := by
  intro k
  induction k with
  | zero =>
    intro iter t
    show (if iter % 2 = 0 then (reducPass n m t.2).bind fun r => some (r, t.2) else (reducPass n m t.1).bind fun r => some (t.1, r)) =
      if (iter + 0) % 2 = 0 then _ else _
    rw [Nat.add_zero]
    split
    · cases reducPass n m t.2 <;> rfl
    · cases reducPass n m t.1 <;> rfl
  | succ k ih =>
    intro iter t
    rw [reducLoop]
    conv_rhs => rw [reducLoop]
    by_cases h : iter % 2 = 0
    · rw [if_pos h, if_pos h, Option.bind_assoc]
      cases reducPass n m t.2 with
      | none => rfl
      | some r => rw [Option.bind_some, Option.bind_some, ih, show iter + 1 + k = iter + (k + 1) by omega]
    · rw [if_neg h, if_neg h, Option.bind_assoc]
      cases reducPass n m t.1 with
      | none => rfl
      | some r => rw [Option.bind_some, Option.bind_some, ih, show iter + 1 + k = iter + (k + 1) by omega]

/-- One more level is one more pass. -/
theorem finalTable_succ (level : Nat) (junk : List W32) :
    finalTable n m (level + 1) junk = (finalTable n m level junk).bind (reducPass n m) := by
  unfold finalTable
  rw [reducLoop_snoc]
  cases reducLoop n m level 1 (splitTable n m, junk) with
  | none => rfl
  | some t =>
    rw [Option.bind_some, Option.map_some, Option.bind_some]
    by_cases h : level % 2 = 0
    · rw [if_neg (by omega), if_pos h]
      cases reducPass n m t.1 with
      | none => rfl
      | some r =>
        rw [Option.map_some, Option.map_some, if_neg (by omega)]
    · rw [if_pos (by omega), if_neg h]
      cases reducPass n m t.2 with
      | none => rfl
      | some r =>
        rw [Option.map_some, Option.map_some, if_pos (by omega)]

theorem reduce_starts (hs : CodesMono n m) (hn0 : 0 < n) (hn : n < 2 ^ 31) (level : Nat)
    (junk : List W32) (garbage : Nat → Nat) (order : List Nat) (hord : order.Perm (List.range n)) (map : List Nat) (cnt : Nat)
    (codes : List (BitVec w)) (hr : reduceMortonSet n m level junk garbage order = some (map, cnt, codes)) :
    ∃ tab L, finalTable n m level junk = some tab ∧ RInv n m tab ∧ map = L ++ [n, 0] ∧ cnt = L.length ∧ L.Pairwise (· < ·) ∧
      ∀ i, i ∈ L ↔ Flag tab i := by
  obtain ⟨tab, ht, H⟩ := finalTable_inv hs hn0 hn level junk
  have hlen := H.len
  have hcomp := C15_stream_compact tab H.bin (by omega) garbage order (by rw [hlen]; exact hord)
  obtain ⟨sp1, sp2⟩ := C15_spec tab
  refine ⟨tab, _, ht, H, ?_, ?_, sp1, sp2⟩
  all_goals
    unfold reduceMortonSet at hr
    obtain ⟨x, h1, h2⟩ := Option.bind_eq_some_iff.1 hr
    unfold reductionAlg at h1
    obtain ⟨tab', g1, g2⟩ := Option.bind_eq_some_iff.1 h1
    obtain ⟨buf, g3, g4⟩ := Option.bind_eq_some_iff.1 g2
    rw [ht, Option.some.injEq] at g1
    subst g1
    rw [hcomp, Option.some.injEq] at g3
    subst g3
    have g5 := Option.some.inj g4
    subst g5
    split at h2
    · cases h2
    · obtain ⟨cs, _, h4⟩ := Option.bind_eq_some_iff.1 h2
      have h5 := Option.some.inj h4
      simp only [Prod.mk.injEq] at h5
      first
        | exact h5.1.symm
        | exact h5.2.1.symm

/-- C07. Without reduction, a cell starts exactly where the code changes: the cells are the groups of equal codes. -/
theorem C07_level_zero (hs : ∀ i j, i < j → j < n → (m i).toNat ≤ (m j).toNat) (hn0 : 0 < n) (hn : n < 2 ^ 31)
    (junk : List W32) (garbage : Nat → Nat) (order : List Nat) (hord : order.Perm (List.range n)) (map : List Nat) (cnt : Nat)
    (codes : List (BitVec w)) (hr : reduceMortonSet n m 0 junk garbage order = some (map, cnt, codes)) (p : Nat) :
    p ∈ map.take cnt ↔ p < n ∧ (p = 0 ∨ m (p - 1) ≠ m p) := by
  obtain ⟨tab, L, h1, H, rfl, rfl, _, h2⟩ := reduce_starts hs hn0 hn 0 junk garbage order hord map cnt codes hr
  rw [List.take_left, h2]
  have : tab = splitTable n m := (Option.some.inj h1).symm
  subst this
  constructor
  · intro hf
    have hp : p < n := by have := flag_lt hf; rw [H.len] at this; exact this
    refine ⟨hp, ?_⟩
    by_cases h0 : p = 0
    · exact Or.inl h0
    · exact Or.inr (H.diff p (by omega) hf)
  · rintro ⟨hp, h⟩
    refine ⟨_, by unfold splitTable; rw [List.getElem?_map, List.getElem?_range hp, Option.map_some], ?_⟩
    split
    · rename_i h0
      rw [if_pos]
      · decide
      · rcases h with h | h
        · omega
        · exact h
    · decide

/-- C07. One more reduction level only merges cells, and it merges each cell with at most one neighbour: every start of the coarser map is
a start of the finer one, and of two consecutive starts of the finer map at least one remains. -/
theorem C07_coarsen (hs : ∀ i j, i < j → j < n → (m i).toNat ≤ (m j).toNat) (hn0 : 0 < n) (hn : n < 2 ^ 31) (level : Nat)
    (junk junk' : List W32) (garbage garbage' : Nat → Nat) (order order' : List Nat) (hord : order.Perm (List.range n))
    (hord' : order'.Perm (List.range n)) (map map' : List Nat) (cnt cnt' : Nat) (codes codes' : List (BitVec w))
    (hr : reduceMortonSet n m level junk garbage order = some (map, cnt, codes))
    (hr' : reduceMortonSet n m (level + 1) junk' garbage' order' = some (map', cnt', codes')) :
    (∀ p ∈ map'.take cnt', p ∈ map.take cnt) ∧
    ∀ k a b, k + 1 < cnt → map[k]? = some a → map[k + 1]? = some b → a ∈ map'.take cnt' ∨ b ∈ map'.take cnt' := by
  have hs' : CodesMono n m := hs
  obtain ⟨tab, L, h1, H, rfl, rfl, hp, h2⟩ := reduce_starts hs' hn0 hn level junk garbage order hord map cnt codes hr
  obtain ⟨tab', L', h1', H', rfl, rfl, _, h2'⟩ := reduce_starts hs' hn0 hn (level + 1) junk' garbage' order' hord' map' cnt' codes' hr'
  -- the second table does not influence the result
  have hj : ∀ (lv : Nat) (j1 j2 : List W32), finalTable n m lv j1 = finalTable n m lv j2 := by
    intro lv j1 j2
    induction lv with
    | zero => rfl
    | succ lv ih => rw [finalTable_succ, finalTable_succ, ih]
  rw [finalTable_succ, hj level junk' junk, h1, Option.bind_some] at h1'
  obtain ⟨tab2, e1, _, e3⟩ := reducPass_inv hs' hn H
  rw [h1', Option.some.injEq] at e1
  subst e1
  rw [List.take_left, List.take_left]
  refine ⟨fun p hpm => (h2 p).2 ((e3 p).1 ((h2' p).1 hpm)).1, ?_⟩
  intro k a b hk ha hb
  rw [List.getElem?_append_left (by omega), List.getElem?_eq_getElem (by omega), Option.some.injEq] at ha
  rw [List.getElem?_append_left hk, List.getElem?_eq_getElem hk, Option.some.injEq] at hb
  have hfa : Flag tab a := (h2 a).1 (ha ▸ List.getElem_mem _)
  have hfb : Flag tab b := (h2 b).1 (hb ▸ List.getElem_mem _)
  obtain ⟨c, c1, c2⟩ := starts_next L H.len hp h2 k (by omega)
  rw [List.getElem?_append_left hk, List.getElem?_eq_getElem hk, Option.some.injEq, hb] at c1
  subst c1
  rw [ha] at c2
  have hprev : IsPrev tab b a := ⟨c2.1, hfa, c2.2.2.2⟩
  rw [h2', h2', e3, e3]
  by_cases hlt : kB n m a < kB n m b
  · left
    refine ⟨hfa, ?_⟩
    intro b' c' _ hc' hcon
    rw [next_unique hc' c2] at hcon
    omega
  · right
    refine ⟨hfb, ?_⟩
    intro b' c' hb' _ hcon
    rw [prev_unique hb' hprev] at hcon
    omega

end

/-- Six particles with codes 0,0,1,4,5,7 (8 bit). -/
def exCodes : Nat → BitVec 8 := fun i => ([0#8, 0#8, 1#8, 4#8, 5#8, 7#8] : List (BitVec 8)).getD i 0#8

example : reduceMortonSet 6 exCodes 0 [] (fun _ => 77) [3, 1, 0, 5, 4, 2] = some ([0, 2, 3, 4, 5, 6, 0], 5, [0#8, 1#8, 4#8, 5#8, 7#8]) := by
  decide +kernel
example : reduceMortonSet 6 exCodes 1 [] (fun _ => 77) [3, 1, 0, 5, 4, 2] = some ([0, 3, 5, 6, 0], 3, [0#8, 4#8, 7#8]) := by decide +kernel
example : reduceMortonSet 6 exCodes 2 [] (fun _ => 77) [3, 1, 0, 5, 4, 2] = some ([0, 3, 6, 0], 2, [0#8, 4#8]) := by decide +kernel
example : (∀ i j, i < j → j < 6 → (exCodes i).toNat ≤ (exCodes j).toNat) ∧ [3, 1, 0, 5, 4, 2].Perm (List.range 6) := by
  refine ⟨?_, by decide⟩
  have : ∀ j < 6, ∀ i < j, (exCodes i).toNat ≤ (exCodes j).toNat := by decide +kernel
  exact fun i j h1 h2 => this j h2 i h1

end Shamrock
