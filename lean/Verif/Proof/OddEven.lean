import Verif.Proof.Sort
/-! Correctness of the odd-even transposition network: threshold (0-1) argument on suffix counts. -/
namespace Shamrock

/-- 0/1 value of a boolean. -/
def b2n (b : Bool) : Nat := if b then 1 else 0

/-- Number of `true` in `g i, …, g (i + d - 1)`. -/
def cnt (g : Nat → Bool) : Nat → Nat → Nat
  | _, 0 => 0
  | i, d + 1 => b2n (g i) + cnt g (i + 1) d

theorem cnt_le (g : Nat → Bool) : ∀ d i, cnt g i d ≤ d := by
  intro d
  induction d with
  | zero => intro i; exact Nat.le_refl _
  | succ d ih =>
    intro i
    have := ih (i + 1)
    have : b2n (g i) ≤ 1 := by unfold b2n; split <;> omega
    simp only [cnt]; omega

theorem cnt_full (g : Nat → Bool) : ∀ d i, cnt g i d = d → ∀ k, k < d → g (i + k) = true := by
  intro d
  induction d with
  | zero => intro i _ k hk; omega
  | succ d ih =>
    intro i h k hk
    simp only [cnt] at h
    have h1 := cnt_le g d (i + 1)
    cases hg : g i with
    | false => simp [b2n, hg] at h; omega
    | true =>
      simp [b2n, hg] at h
      cases k with
      | zero => exact hg
      | succ k =>
        have := ih (i + 1) (by omega) k (by omega)
        rw [show i + (k + 1) = i + 1 + k by omega]; exact this

/-- One odd-even pass at the boolean level inside `[a, b)`: pairs start at indices of parity `I`. -/
structure BoolPass (a b I : Nat) (g g' : Nat → Bool) : Prop where
  pair : ∀ j, a ≤ j → j + 1 < b → j % 2 = I % 2 → g' j = (g j && g (j + 1)) ∧ g' (j + 1) = (g j || g (j + 1))
  last : ∀ j, a ≤ j → j + 1 = b → j % 2 = I % 2 → g' j = g j
  first : a < b → a % 2 ≠ I % 2 → g' a = g a

theorem b2n_and_or (x y : Bool) : b2n (x && y) + b2n (x || y) = b2n x + b2n y := by
  cases x <;> cases y <;> rfl

theorem cnt_pass_even (a b I : Nat) (g g' : Nat → Bool) (h : BoolPass a b I g g') :
    ∀ d i, a ≤ i → i + d = b → i % 2 = I % 2 → cnt g' i d = cnt g i d := by
  intro d
  induction d using Nat.strongRecOn with
  | _ d ih =>
    intro i ha hb hp
    match d, ih, hb with
    | 0, _, _ => rfl
    | 1, _, hb => simp only [cnt]; rw [h.last i ha hb hp]
    | d + 2, ih, hb =>
      simp only [cnt]
      obtain ⟨h1, h2⟩ := h.pair i ha (by omega) hp
      rw [ih d (by omega) (i + 1 + 1) (by omega) (by omega) (by omega), h1, h2]
      have := b2n_and_or (g i) (g (i + 1))
      omega

/-- The lower bound on suffix counts after `t` passes. -/
def CntInv (a b m B t : Nat) (g : Nat → Bool) : Prop :=
  ∀ i d, a ≤ i → i + d = b → m ≤ cnt g i d ∨ d ≤ cnt g i d ∨ B + t ≤ 2 * cnt g i d + 1 + (i - a)

theorem b2n_le (x : Bool) : b2n x ≤ 1 := by unfold b2n; split <;> omega

theorem cntInv_step (a b m B t : Nat) (g g' : Nat → Bool) (h : BoolPass a b t g g') (hB : B % 2 = a % 2)
    (hm : cnt g a (b - a) = m) (hab : a ≤ b) (hi : CntInv a b m B t g) :
    CntInv a b m B (t + 1) g' ∧ cnt g' a (b - a) = m := by
  -- counts before/after at odd positions
  have hodd : ∀ i d, a ≤ i → i + (d + 1) = b → i % 2 ≠ t % 2 → cnt g' i (d + 1) = b2n (g' i) + cnt g (i + 1) d := by
    intro i d h1 h2 h3
    simp only [cnt]
    rw [cnt_pass_even a b t g g' h d (i + 1) (by omega) (by omega) (by omega)]
  have hm' : cnt g' a (b - a) = m := by
    by_cases hp : a % 2 = t % 2
    · rw [cnt_pass_even a b t g g' h _ a (Nat.le_refl _) (by omega) hp, hm]
    · by_cases hlt : a < b
      · obtain ⟨d, hd⟩ : ∃ d, b - a = d + 1 := ⟨b - a - 1, by omega⟩
        rw [hd, hodd a d (Nat.le_refl _) (by omega) hp, h.first hlt hp, ← hm, hd]; rfl
      · have : b - a = 0 := by omega
        rw [this] at hm ⊢; exact hm
  refine ⟨?_, hm'⟩
  intro i d h1 h2
  by_cases hp : i % 2 = t % 2
  · rw [cnt_pass_even a b t g g' h d i h1 h2 hp]
    have := hi i d h1 h2
    omega
  · by_cases hia : i = a
    · subst hia
      left
      rw [show d = b - i by omega, hm']
    · cases d with
      | zero => right; left; exact Nat.zero_le _
      | succ d =>
        rw [hodd i d h1 h2 hp]
        obtain ⟨j, rfl⟩ : ∃ j, i = j + 1 := ⟨i - 1, by omega⟩
        have hpair := h.pair j (by omega) (by omega) (by omega)
        rw [hpair.2]
        have c1 : cnt g j (d + 1 + 1) = b2n (g j) + (b2n (g (j + 1)) + cnt g (j + 1 + 1) d) := rfl
        have i1 := hi j (d + 1 + 1) (by omega) (by omega)
        have i2 := hi (j + 1 + 1) d (by omega) (by omega)
        rw [c1] at i1
        generalize cnt g (j + 1 + 1) d = c at i1 i2 ⊢
        have k1 : b2n (g j || g (j + 1)) ≤ 1 := b2n_le _
        cases hg1 : g j <;> cases hg2 : g (j + 1) <;> simp [hg1, hg2, b2n] at i1 ⊢ <;> omega

theorem cntInv_init (a b m B : Nat) (g : Nat → Bool) (hm : cnt g a (b - a) = m) (hab : a ≤ b) (hB : B ≤ m + 1) :
    CntInv a b m B 0 g := by
  -- suffix count at i is at least m - (i - a)
  have key : ∀ k d i, i + k + d = b → a ≤ i → cnt g i (k + d) ≤ k + cnt g (i + k) d := by
    intro k
    induction k with
    | zero => intro d i _ _; simp
    | succ k ih =>
      intro d i h1 h2
      have := ih d (i + 1) (by omega) (by omega)
      rw [show k + 1 + d = (k + d) + 1 by omega]
      simp only [cnt]
      have := b2n_le (g i)
      rw [show i + (k + 1) = i + 1 + k by omega]
      omega
  intro i d h1 h2
  have := key (i - a) d a (by omega) (Nat.le_refl _)
  rw [show a + (i - a) = i by omega, show i - a + d = b - a by omega, hm] at this
  omega

theorem cntInv_sorted (a b m B T : Nat) (g : Nat → Bool) (hm : cnt g a (b - a) = m) (hB : m ≤ B) (hT : b - a ≤ T)
    (hi : CntInv a b m B T g) : ∀ i j, a ≤ i → i < j → j < b → g i = true → g j = true := by
  intro i j h1 h2 h3 hg
  have hmono : ∀ k d i, a + k = i → i + d = b → cnt g i d ≤ m := by
    intro k
    induction k with
    | zero => intro d i h4 h5; rw [← hm]; rw [show i = a by omega, show d = b - a by omega]
    | succ k ih =>
      intro d i h4 h5
      have := ih (d + 1) (a + k) rfl (by omega)
      simp only [cnt] at this
      rw [show a + k + 1 = i by omega] at this
      omega
  have hc := hmono (i - a) (b - i) i (by omega) (by omega)
  obtain ⟨d, hd⟩ : ∃ d, b - i = d + 1 := ⟨b - i - 1, by omega⟩
  rw [hd] at hc
  simp only [cnt, hg, b2n, if_true] at hc
  have h5 := hi (i + 1) d (by omega) (by omega)
  have h6 := cnt_le g d (i + 1)
  have hfull : cnt g (i + 1) d = d := by omega
  have := cnt_full g d (i + 1) hfull (j - (i + 1)) (by omega)
  rwa [show i + 1 + (j - (i + 1)) = j by omega] at this

/-! ### List level -/

theorem wr_some {α} (l : List α) (i : Nat) (v : α) (h : i < l.length) : wr l i v = some (l.set i v) := by
  unfold wr; rw [if_pos h]

/-- Effect of one comparator. -/
def cswap {α} (comp : α → α → Bool) (bnd : List Bool) (l : List α) (i : Nat) : List α :=
  match bnd[i]?, l[i]?, l[i + 1]? with
  | some false, some a, some b => if comp b a then (l.set i b).set (i + 1) a else l
  | _, _, _ => l

theorem oetCmp_eq {α} (comp : α → α → Bool) (bnd : List Bool) (l : List α) (i : Nat) (h : i + 1 < l.length)
    (hb : i < bnd.length) : oetCmp comp bnd i l = some (cswap comp bnd l i) := by
  unfold oetCmp cswap
  rw [List.getElem?_eq_getElem hb, List.getElem?_eq_getElem h, List.getElem?_eq_getElem (show i < l.length by omega)]
  cases hv : bnd[i] with
  | true => rfl
  | false =>
    simp only [Option.bind_eq_bind, Option.bind_some, Bool.false_eq_true, if_false]
    split
    · rw [wr_some _ _ _ (by omega)]
      simp only [Option.bind_some]
      rw [wr_some _ _ _ (by simpa using h)]
    · rfl

theorem cswap_length {α} (comp : α → α → Bool) (bnd : List Bool) (l : List α) (i : Nat) :
    (cswap comp bnd l i).length = l.length := by
  unfold cswap
  split
  · split <;> simp
  · rfl

theorem cswap_other {α} (comp : α → α → Bool) (bnd : List Bool) (l : List α) (i k : Nat) (h : k ≠ i) (h' : k ≠ i + 1) :
    (cswap comp bnd l i)[k]? = l[k]? := by
  unfold cswap
  split
  · split
    · rw [List.getElem?_set_ne (by omega), List.getElem?_set_ne (by omega)]
    · rfl
  · rfl

theorem cswap_perm_seg {α} (comp : α → α → Bool) (bnd : List Bool) (l : List α) (i a b : Nat) (hab : a ≤ b)
    (hb : b ≤ l.length) (hl : a = 0 ∨ bnd[a - 1]? = some true) (hr : b = l.length ∨ b = 0 ∨ bnd[b - 1]? = some true)
    (hi : i + 1 < l.length) : (seg (cswap comp bnd l i) a b).Perm (seg l a b) := by
  unfold cswap
  split
  · rename_i x y hf hx hy
    split
    · by_cases hin : a ≤ i ∧ i + 1 < b
      · -- both inside
        obtain ⟨h1, h2, h3⟩ := split3 l a b hab hb
        have hS : ∃ U V, seg l a b = U ++ x :: y :: V ∧ a + U.length = i := by
          have g1 : (seg l a b)[i - a]? = some x := by
            unfold seg; rw [List.getElem?_take, if_pos (by omega), List.getElem?_drop, show a + (i - a) = i by omega]; exact hx
          have g2 : (seg l a b)[i - a + 1]? = some y := by
            unfold seg; rw [List.getElem?_take, if_pos (by omega), List.getElem?_drop, show a + (i - a + 1) = i + 1 by omega]; exact hy
          generalize seg l a b = S at g1 g2 h3
          obtain ⟨k1, e1⟩ := List.getElem?_eq_some_iff.1 g1
          obtain ⟨k2, e2⟩ := List.getElem?_eq_some_iff.1 g2
          refine ⟨S.take (i - a), S.drop (i - a + 2), ?_, ?_⟩
          · conv => lhs; rw [← List.take_append_drop (i - a) S]
            rw [List.drop_eq_getElem_cons k1, List.drop_eq_getElem_cons k2, e1, e2]
          · rw [List.length_take]; omega
        obtain ⟨U, V, hUV, hlen⟩ := hS
        have hA : (l.take a).length = a := h2
        generalize l.take a = A at h1 hA
        generalize l.drop b = D at h1
        rw [hUV] at h1 ⊢
        subst h1
        have e : ((A ++ (U ++ x :: y :: V) ++ D).set i y).set (i + 1) x = A ++ (U ++ y :: x :: V) ++ D := by
          have r : A ++ (U ++ x :: y :: V) ++ D = (A ++ U) ++ (x :: y :: (V ++ D)) := by simp
          rw [r, List.set_append_right _ _ (by simp; omega), List.set_append_right _ _ (by simp; omega)]
          rw [show i - (A ++ U).length = 0 by simp; omega, show i + 1 - (A ++ U).length = 1 by simp; omega]
          simp
        rw [e]
        have hb' : b = A.length + (U ++ y :: x :: V).length := by
          have := h3; rw [hUV] at this; simp at this ⊢; omega
        rw [hb', ← hA, seg_parts]
        exact List.Perm.append_left _ (List.Perm.swap _ _ _)
      · apply List.Perm.of_eq
        apply seg_congr
        intro k h1 h2
        have : k ≠ i ∧ k ≠ i + 1 := by
          constructor
          · rintro rfl
            -- i in [a,b), i+1 = b
            have : k + 1 = b := by omega
            subst this
            rcases hr with h | h | h
            · omega
            · omega
            · rw [Nat.add_sub_cancel, hf] at h; cases h
          · rintro rfl
            have : a = i + 1 := by omega
            subst this
            rcases hl with h | h
            · omega
            · rw [Nat.add_sub_cancel, hf] at h; cases h
        rw [List.getElem?_set_ne (by omega), List.getElem?_set_ne (by omega)]
    · exact List.Perm.refl _
  · exact List.Perm.refl _

/-- Result of a pass: every pair of the right parity went through its comparator, read from the list before the pass. -/
theorem oetPass_spec {α} (comp : α → α → Bool) (bnd : List Bool) (n : Nat) (hb : n ≤ bnd.length + 1) :
    ∀ (m i : Nat) (l : List α), n - i ≤ m → l.length = n →
      ∃ out, oetPass comp bnd n i l = some out ∧ out.length = n ∧
        (∀ j : Nat, i ≤ j → j + 1 < n → j % 2 = i % 2 →
          out[j]? = (cswap comp bnd l j)[j]? ∧ out[j + 1]? = (cswap comp bnd l j)[j + 1]?) ∧
        (∀ j : Nat, i ≤ j → j + 1 = n → j % 2 = i % 2 → out[j]? = l[j]?) ∧
        (∀ j : Nat, j < i → out[j]? = l[j]?) ∧
        (∀ a b, a ≤ b → b ≤ n → (a = 0 ∨ bnd[a - 1]? = some true) → (b = n ∨ b = 0 ∨ bnd[b - 1]? = some true) →
          (seg out a b).Perm (seg l a b)) := by
  intro m
  induction m using Nat.strongRecOn with
  | _ m ih =>
    intro i l hm hl
    unfold oetPass
    by_cases hc : i + 1 < n
    · rw [if_pos hc, oetCmp_eq comp bnd l i (by omega) (by omega)]
      simp only [Option.bind_eq_bind, Option.bind_some]
      have hlen := cswap_length comp bnd l i
      obtain ⟨out, h1, h2, h3, h4, h5, h6⟩ := ih (m - 2) (by omega) (i + 2) (cswap comp bnd l i) (by omega) (by omega)
      refine ⟨out, h1, h2, ?_, ?_, ?_, ?_⟩
      · intro j j1 j2 j3
        by_cases hj : j = i
        · subst hj; exact ⟨h5 j (by omega), h5 (j + 1) (by omega)⟩
        · have := h3 j (by omega) j2 (by omega)
          have e0 : (cswap comp bnd l i)[j]? = l[j]? := cswap_other _ _ _ _ _ (by omega) (by omega)
          have e1 : (cswap comp bnd l i)[j + 1]? = l[j + 1]? := cswap_other _ _ _ _ _ (by omega) (by omega)
          -- the comparator j reads only j, j+1
          have loc : ∀ l1 l2 : List α, l1.length = l2.length → l1[j]? = l2[j]? → l1[j + 1]? = l2[j + 1]? →
              (cswap comp bnd l1 j)[j]? = (cswap comp bnd l2 j)[j]? ∧
              (cswap comp bnd l1 j)[j + 1]? = (cswap comp bnd l2 j)[j + 1]? := by
            intro l1 l2 hlen q1 q2
            unfold cswap
            rw [q1, q2]
            split
            · split
              · simp only [List.getElem?_set, List.length_set]
                simp [hlen]
              · exact ⟨q1, q2⟩
            · exact ⟨q1, q2⟩
          obtain ⟨l1, l2⟩ := loc (cswap comp bnd l i) l hlen e0 e1
          rw [← l1, ← l2]; exact this
      · intro j j1 j2 j3
        rw [h4 j (by omega) j2 (by omega)]
        exact cswap_other _ _ _ _ _ (by omega) (by omega)
      · intro j hj
        rw [h5 j (by omega)]
        exact cswap_other _ _ _ _ _ (by omega) (by omega)
      · intro a b q1 q2 q3 q4
        exact (h6 a b q1 q2 q3 q4).trans (cswap_perm_seg comp bnd l i a b q1 (by omega) q3 (by rw [hl]; exact q4) (by omega))
    · rw [if_neg hc]
      exact ⟨l, rfl, hl, fun j j1 j2 => by omega, fun _ _ _ _ => rfl, fun _ _ => rfl, fun _ _ _ _ _ _ => List.Perm.refl _⟩

/-- Threshold projection: `true` when the element is not before `c`. -/
def thr {α} (comp : α → α → Bool) (c : α) (l : List α) (i : Nat) : Bool :=
  match l[i]? with
  | some x => !comp x c
  | none => false

theorem thr_pair {α} (comp : α → α → Bool) (hw : StrictWeak comp) (bnd : List Bool) (c : α) (l : List α) (j : Nat)
    (h : j + 1 < l.length) (hf : bnd[j]? = some false) :
    thr comp c (cswap comp bnd l j) j = (thr comp c l j && thr comp c l (j + 1)) ∧
    thr comp c (cswap comp bnd l j) (j + 1) = (thr comp c l j || thr comp c l (j + 1)) := by
  have e0 : l[j]? = some (l[j]'(by omega)) := List.getElem?_eq_getElem (by omega)
  have e1 : l[j + 1]? = some (l[j + 1]'h) := List.getElem?_eq_getElem h
  generalize l[j]'(by omega) = x at e0
  generalize l[j + 1]'h = y at e1
  have hcs : cswap comp bnd l j = if comp y x then (l.set j y).set (j + 1) x else l := by
    unfold cswap; rw [hf, e0, e1]
  rw [hcs]
  unfold thr
  by_cases hc : comp y x = true
  · rw [if_pos hc]
    have g0 : ((l.set j y).set (j + 1) x)[j]? = some y := by
      rw [List.getElem?_set_ne (by omega), List.getElem?_set_self (by omega)]
    have g1 : ((l.set j y).set (j + 1) x)[j + 1]? = some x := by
      rw [List.getElem?_set_self (by simpa using h)]
    rw [g0, g1, e0, e1]
    -- y < x : thr y → thr x
    have : comp y c = false → comp x c = false := by
      intro h1
      cases hx : comp x c
      · rfl
      · have := hw.trans' hx h1
        rw [hw.asymm _ _ hc] at this; cases this
    cases hy : comp y c <;> cases hx : comp x c <;> simp_all
  · rw [if_neg hc, e0, e1]
    have hc' : comp y x = false := by simpa using hc
    have : comp x c = false → comp y c = false := by
      intro h1
      exact hw.negTrans _ _ _ hc' h1
    cases hy : comp y c <;> cases hx : comp x c <;> simp_all

theorem oetSortT_spec {α} (comp : α → α → Bool) (hw : StrictWeak comp) (bnd : List Bool) (n : Nat)
    (hb : n ≤ bnd.length + 1) :
    ∀ (fuel I : Nat) (l : List α), l.length = n →
      ∃ out, oetSortT comp bnd n fuel I l = some out ∧ out.length = n ∧
        ∀ a b, a ≤ b → b ≤ n → (a = 0 ∨ bnd[a - 1]? = some true) → (b = n ∨ b = 0 ∨ bnd[b - 1]? = some true) →
          (∀ i : Nat, a ≤ i → i + 1 < b → bnd[i]? = some false) →
          (seg out a b).Perm (seg l a b) ∧
          ∀ (c : α) (m B : Nat), B % 2 = a % 2 → cnt (thr comp c l) a (b - a) = m → CntInv a b m B I (thr comp c l) →
            CntInv a b m B (I + fuel) (thr comp c out) ∧ cnt (thr comp c out) a (b - a) = m := by
  intro fuel
  induction fuel with
  | zero =>
    intro I l hl
    exact ⟨l, rfl, hl, fun a b _ _ _ _ _ => ⟨List.Perm.refl _, fun c m B _ h1 h2 => ⟨h2, h1⟩⟩⟩
  | succ fuel ih =>
    intro I l hl
    obtain ⟨l1, p1, p2, p3, p4, p5, p6⟩ := oetPass_spec comp bnd n hb _ (I % 2) l (Nat.le_refl _) hl
    obtain ⟨out, q1, q2, q3⟩ := ih (I + 1) l1 p2
    refine ⟨out, ?_, q2, ?_⟩
    · simp only [oetSortT, p1, Option.bind_eq_bind, Option.bind_some]; exact q1
    · intro a b h1 h2 h3 h4 h5
      obtain ⟨r1, r2⟩ := q3 a b h1 h2 h3 h4 h5
      refine ⟨r1.trans (p6 a b h1 h2 h3 h4), ?_⟩
      intro c m B hB hm hi
      have hthr : ∀ (x y : List α) (i : Nat), x[i]? = y[i]? → thr comp c x i = thr comp c y i := by
        intro x y i h; unfold thr; rw [h]
      have hmod : (I % 2) % 2 = I % 2 := Nat.mod_mod _ _
      have hbp : BoolPass a b I (thr comp c l) (thr comp c l1) := by
        refine ⟨?_, ?_, ?_⟩
        · intro j j1 j2 j3
          have := p3 j (by omega) (by omega) (by omega)
          rw [hthr l1 _ j this.1, hthr l1 _ (j + 1) this.2]
          exact thr_pair comp hw bnd c l j (by omega) (h5 j j1 j2)
        · intro j j1 j2 j3
          apply hthr
          by_cases hn : b = n
          · exact p4 j (by omega) (by omega) (by omega)
          · have hf : bnd[j]? = some true := by
              rcases h4 with h | h | h
              · exact absurd h hn
              · omega
              · rw [← h]; rw [← j2, Nat.add_sub_cancel]
            have := (p3 j (by omega) (by omega) (by omega)).1
            rw [this]; unfold cswap; rw [hf]
        · intro hlt hne
          apply hthr
          by_cases ha : a = 0
          · subst ha
            have : I % 2 = 1 := by omega
            exact p5 0 (by omega)
          · have hf : bnd[a - 1]? = some true := by
              rcases h3 with h | h
              · exact absurd h ha
              · exact h
            by_cases hlt2 : a - 1 < I % 2
            · exact p5 a (by omega)
            · have := (p3 (a - 1) (by omega) (by omega) (by omega)).2
              rw [show a - 1 + 1 = a by omega] at this
              rw [this]; unfold cswap; rw [hf]
      obtain ⟨s1, s2⟩ := cntInv_step a b m B I _ _ hbp hB hm h1 hi
      have := r2 c m B hB s2 s1
      rwa [show I + (fuel + 1) = I + 1 + fuel by omega]

theorem oet_main {α} (comp : α → α → Bool) (hw : StrictWeak comp) (bnd : List Bool) (keys : List α)
    (hb : keys.length ≤ bnd.length + 1) :
    ∃ out, oetSort comp bnd keys.length keys = some out ∧ out.length = keys.length ∧
      ∀ a b, a ≤ b → b ≤ keys.length → (a = 0 ∨ bnd[a - 1]? = some true) →
        (b = keys.length ∨ b = 0 ∨ bnd[b - 1]? = some true) → (∀ i : Nat, a ≤ i → i + 1 < b → bnd[i]? = some false) →
        CompSorted comp (seg out a b) ∧ (seg out a b).Perm (seg keys a b) := by
  obtain ⟨out, h1, h2, h3⟩ := oetSortT_spec comp hw bnd keys.length hb keys.length 0 keys rfl
  refine ⟨out, h1, h2, ?_⟩
  intro a b q1 q2 q3 q4 q5
  obtain ⟨r1, r2⟩ := h3 a b q1 q2 q3 q4 q5
  refine ⟨?_, r1⟩
  unfold CompSorted
  rw [List.pairwise_iff_getElem]
  intro i j hi hj hij
  have hsl : (seg out a b).length = b - a := by simp [seg]; omega
  cases hc : comp (seg out a b)[j] (seg out a b)[i] with
  | false => rfl
  | true =>
    exfalso
    have gi : out[a + i]? = some (seg out a b)[i] := by
      have := List.getElem?_eq_getElem hi
      unfold seg at this
      rw [List.getElem?_take, if_pos (by omega), List.getElem?_drop] at this
      exact this
    have gj : out[a + j]? = some (seg out a b)[j] := by
      have := List.getElem?_eq_getElem hj
      unfold seg at this
      rw [List.getElem?_take, if_pos (by omega), List.getElem?_drop] at this
      exact this
    let c := (seg out a b)[i]
    let m := cnt (thr comp c keys) a (b - a)
    have hBex : ∃ B, B % 2 = a % 2 ∧ m ≤ B ∧ B ≤ m + 1 := by
      by_cases h : m % 2 = a % 2
      · exact ⟨m, h, by omega, by omega⟩
      · exact ⟨m + 1, by omega, by omega, by omega⟩
    obtain ⟨B, b1, b2, b3⟩ := hBex
    obtain ⟨s1, s2⟩ := r2 c m B b1 rfl (cntInv_init a b m B _ rfl q1 b3)
    have := cntInv_sorted a b m B _ _ s2 b2 (by omega) s1 (a + i) (a + j) (by omega) (by omega) (by omega)
      (by unfold thr; rw [gi]; simp [c, hw.irrefl])
    unfold thr at this
    rw [gj] at this
    simp [c, hc] at this

end Shamrock
