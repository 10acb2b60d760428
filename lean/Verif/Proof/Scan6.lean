import Verif.Model.Scan6
import Verif.Proof.Lookback
/-! Invariant of the scan with the parallel look-back. -/
namespace Shamrock

/-- The same launch in the vocabulary of the other kernels: shifted load, inclusive group scan, out of place, static ids. -/
def L6Cfg.base (c : L6Cfg) : LBCfg := ⟨c.len, c.gs, c.G, true, false, false, c.K, c.inp⟩

theorem redAdd_eq (f : Nat → W32) : ∀ n, redAdd f n = pre f n := by
  intro n
  induction n with
  | zero => rfl
  | succ n ih => simp only [redAdd, pre, ih]

theorem pre_congr6 {f g : Nat → W32} : ∀ n, (∀ k < n, f k = g k) → pre f n = pre g n := by
  intro n
  induction n with
  | zero => intro _; rfl
  | succ n ih => intro h; simp only [pre]; rw [ih (fun k hk => h k (by omega)), h n (by omega)]

theorem redMin_le (f : Nat → Nat) : ∀ n, ∀ k < n, redMin f n ≤ f k := by
  intro n
  induction n with
  | zero => intro k hk; omega
  | succ n ih =>
    intro k hk
    simp only [redMin]
    by_cases h : k = n
    · subst h; omega
    · have := ih k (by omega); omega

theorem redMin_mem (f : Nat → Nat) : ∀ n, 0 < n → (∀ k < n, f k < 2 ^ 32) → ∃ k < n, redMin f n = f k := by
  intro n
  induction n with
  | zero => intro h; omega
  | succ n ih =>
    intro _ hb
    simp only [redMin]
    by_cases h0 : n = 0
    · subst h0
      refine ⟨0, by omega, ?_⟩
      have := hb 0 (by omega)
      simp only [redMin]; omega
    · obtain ⟨k, h1, h2⟩ := ih (by omega) (fun k hk => hb k (by omega))
      by_cases h : redMin f n ≤ f n
      · exact ⟨k, by omega, by omega⟩
      · exact ⟨n, by omega, by omega⟩

/-- Sum of states: `n` plus the number of `P`. -/
theorem sum_states (f : Nat → W32) : ∀ n, n < 2 ^ 31 → (∀ k < n, f k = 1 ∨ f k = 2) →
    (pre f n).toNat = n + ((List.range n).filter fun k => f k = 2).length := by
  intro n
  induction n with
  | zero => intro _ _; rfl
  | succ n ih =>
    intro hn h
    have hl := List.length_filter_le (fun k => decide (f k = 2)) (List.range n)
    rw [List.length_range] at hl
    simp only [pre]
    rw [List.range_succ, List.filter_append, List.length_append, BitVec.toNat_add, ih (by omega) (fun k hk => h k (by omega))]
    rcases h n (by omega) with h1 | h1
    · have e : List.filter (fun k => decide (f k = 2)) [n] = [] := by simp [h1]
      have e1 : (1 : W32).toNat = 1 := rfl
      rw [h1, e, e1, List.length_nil]; omega
    · have e : List.filter (fun k => decide (f k = 2)) [n] = [n] := by simp [h1]
      have e1 : (2 : W32).toNat = 2 := rfl
      rw [h1, e, e1, List.length_singleton]; omega

/-- Possible contents of tile `q`, when it was not invalid. -/
def TileVal (c : L6Cfg) (q : Nat) (v : W32 × W32) : Prop :=
  (q ≠ 0 ∧ v = (1, c.base.gsum q)) ∨ v = (2, pre c.base.w ((q + 1) * c.gs))

/-- Invariant of one group. -/
def L6PcOk (c : L6Cfg) (s : L6State) (t : Nat) : Prop :=
  match s.pc t with
  | .idle => s.tiles[t]? = some (pack32 0 0) ∧ ∀ l, s.reads t l = none
  | .loading => s.tiles[t]? = some (pack32 0 0) ∧ ∀ l, s.reads t l = none
  | .look ptr acc posted => s.tiles[t]? = some (if posted then pack32 1 (c.base.gsum t) else pack32 0 0) ∧ (∀ l < c.gs, s.regs t l ≠ none) ∧
      ptr < t ∧ acc + pre c.base.w ((ptr + 1) * c.gs) = pre c.base.w (t * c.gs) ∧ (posted = false → s.reads t 0 = none) ∧
      ∀ l v, s.reads t l = some v → if l < c.tc ∧ l ≤ ptr then TileVal c (ptr - l) v else v = (1, 0)
  | .out acc posted => (∀ l < c.gs, s.regs t l ≠ none) ∧ acc = pre c.base.w (t * c.gs) ∧
      (if posted then s.tiles[t]? = some (pack32 2 (pre c.base.w ((t + 1) * c.gs)))
       else (t ≠ 0 ∧ s.tiles[t]? = some (pack32 1 (c.base.gsum t))) ∨ (t = 0 ∧ s.tiles[t]? = some (pack32 0 0)))

/-- Static requirements of a launch; `static_assert(thread_counts <= group_size)`, scanDecoupledLookback.hpp:713. -/
structure L6Ok (c : L6Cfg) (L : Nat) : Prop where
  gs : 0 < c.gs
  gsl : c.gs < 2 ^ 31
  tc : 0 < c.tc ∧ c.tc ≤ c.gs
  cover : c.len ≤ c.G * c.gs
  small : c.G * c.gs < 2 ^ 32
  inp : c.len ≤ c.inp.length
  out : c.len ≤ L

structure L6Inv (c : L6Cfg) (L : Nat) (s : L6State) : Prop where
  tl : s.tiles.length = c.G
  bl : s.buf.length = L
  regs : ∀ t l v, s.regs t l = some v → v = c.base.w (t * c.gs + l)
  pcs : ∀ t < c.G, L6PcOk c s t
  wri : ∀ g, s.written g = true → g < c.len ∧ s.buf[g]? = some (exclSpec c.inp g)
  idle : ∀ t, c.G ≤ t → s.pc t = .idle

theorem L6PcOk_congr (c : L6Cfg) (s s' : L6State) (t : Nat) (h1 : s'.pc t = s.pc t) (h2 : s'.tiles[t]? = s.tiles[t]?)
    (h3 : ∀ l, s'.regs t l = s.regs t l) (h4 : ∀ l, s'.reads t l = s.reads t l) (h : L6PcOk c s t) : L6PcOk c s' t := by
  unfold L6PcOk at *
  rw [h1, h2]
  simp only [h3, h4]
  exact h

theorem L6setPc_self (s : L6State) (t : Nat) (p : L6Pc) : (s.setPc t p).pc t = p := by simp [L6State.setPc]
theorem L6setPc_ne (s : L6State) (t k : Nat) (p : L6Pc) (h : k ≠ t) : (s.setPc t p).pc k = s.pc k := by simp [L6State.setPc, h]

theorem L6Inv_init (c : L6Cfg) (out0 : List W32) (L : Nat) (ho : out0.length = L) : L6Inv c L (L6State.init c out0) := by
  refine ⟨by simp [L6State.init], ho, ?_, ?_, ?_, fun _ _ => rfl⟩
  · intro t l v h; simp [L6State.init] at h
  · intro t ht
    unfold L6PcOk
    simp [L6State.init, ht]
  · intro g h; simp [L6State.init] at h

/-- Changing only the pc of `t`, its reads and its tile. -/
theorem L6Inv_upd (c : L6Cfg) (L : Nat) (s s' : L6State) (t : Nat) (hi : L6Inv c L s) (ht : t < c.G) (hpc : ∀ k, k ≠ t → s'.pc k = s.pc k)
    (htl : s'.tiles.length = s.tiles.length) (htile : ∀ k : Nat, k ≠ t → s'.tiles[k]? = s.tiles[k]?) (hregs : s'.regs = s.regs)
    (hrd : ∀ k l, k ≠ t → s'.reads k l = s.reads k l) (hbuf : s'.buf = s.buf) (hwr : s'.written = s.written) (hok : L6PcOk c s' t) : L6Inv c L s' := by
  refine ⟨by rw [htl, hi.tl], by rw [hbuf, hi.bl], by rw [hregs]; exact hi.regs, ?_, by rw [hwr, hbuf]; exact hi.wri, fun k hk => by rw [hpc k (by omega)]; exact hi.idle k hk⟩
  intro k hk
  by_cases hkt : k = t
  · rw [hkt]; exact hok
  · exact L6PcOk_congr c s s' k (hpc k hkt) (htile k hkt) (fun l => by rw [hregs]) (fun l => hrd k l hkt) (hi.pcs k hk)

theorem reg_pre (c : L6Cfg) (L : Nat) (s : L6State) (hi : L6Inv c L s) (t n : Nat) (h : ∀ l < n, s.regs t l ≠ none) :
    redAdd (s.reg t) n = pre (fun l => c.base.w (t * c.gs + l)) n := by
  rw [redAdd_eq]
  apply pre_congr6
  intro k hk
  unfold L6State.reg
  cases hr : s.regs t k with
  | none => exact absurd hr (h k hk)
  | some v => rw [hi.regs t k v hr]; rfl

/-- The sum of the lanes up to the first `P` is the sum of everything up to the tile pointed at. -/
theorem look_sum (c : L6Cfg) (ptr : Nat) : ∀ n, n ≤ ptr + 1 → pre (fun l => c.base.gsum (ptr - l)) n + pre c.base.w ((ptr + 1 - n) * c.gs) = pre c.base.w ((ptr + 1) * c.gs) := by
  intro n
  induction n with
  | zero => intro _; simp [pre]
  | succ n ih =>
    intro hn
    rw [← ih (by omega)]
    simp only [pre]
    have h1 : ptr + 1 - n = (ptr - n) + 1 := by omega
    have h2 : ptr + 1 - (n + 1) = ptr - n := by omega
    have h3 := pre_group c.base (ptr - n)
    rw [h1, h2]
    have h4 : c.base.gs = c.gs := rfl
    rw [h4] at h3
    rw [h3, BitVec.add_assoc, BitVec.add_comm (c.base.gsum (ptr - n))]

theorem pre_split (f : Nat → W32) (a b : Nat) (h : a ≤ b) (hz : ∀ k, a ≤ k → k < b → f k = 0) : pre f b = pre f a := by
  obtain ⟨d, rfl⟩ : ∃ d, b = a + d := ⟨b - a, by omega⟩
  clear h
  induction d with
  | zero => rfl
  | succ d ih =>
    rw [← Nat.add_assoc]
    simp only [pre]
    rw [hz (a + d) (by omega) (by omega), ih (fun k h1 h2 => hz k h1 (by omega))]
    simp

theorem round_ok (c : L6Cfg) (L : Nat) (hc : L6Ok c L) (s : L6State) (hi : L6Inv c L s) (t : Nat) (ht : t < c.G) (ptr : Nat) (acc : W32) (posted : Bool)
    (hpc : s.pc t = .look ptr acc posted) (hall : ∀ l < c.gs, s.reads t l ≠ none) :
    L6Inv c L (s.round c t ptr acc posted) ∧ (s.round c t ptr acc posted).pc t ≠ s.pc t := by
  have hok := hi.pcs t ht
  unfold L6PcOk at hok
  rw [hpc] at hok
  obtain ⟨h1, h2, h3, h4, h5, h6⟩ := hok
  have hposted : posted = true := by
    cases posted with
    | true => rfl
    | false => exact absurd (h5 rfl) (hall 0 hc.gs)
  subst hposted
  rw [if_pos rfl] at h1
  obtain ⟨htc0, htc⟩ := hc.tc
  have hrd : ∀ l < c.gs, if l < c.tc ∧ l ≤ ptr then TileVal c (ptr - l) (s.rd t l) else s.rd t l = (1, 0) := by
    intro l hl
    unfold L6State.rd
    cases hr : s.reads t l with
    | none => exact absurd hr (hall l hl)
    | some v => exact h6 l v hr
  have h12 : ∀ l < c.gs, (s.rd t l).1 = 1 ∨ (s.rd t l).1 = 2 := by
    intro l hl
    have := hrd l hl
    split at this
    · rcases this with ⟨-, h⟩ | h
      · rw [h]; exact Or.inl rfl
      · rw [h]; exact Or.inr rfl
    · rw [this]; exact Or.inl rfl
  have hsum := sum_states (fun l => (s.rd t l).1) c.gs hc.gsl h12
  -- a `P` at lane `l`
  have hP : ∀ l < c.gs, (s.rd t l).1 = 2 → l < c.tc ∧ l ≤ ptr ∧ (s.rd t l).2 = pre c.base.w ((ptr - l + 1) * c.gs) := by
    intro l hl h
    have := hrd l hl
    split at this
    · rename_i hlt
      rcases this with ⟨-, h'⟩ | h'
      · rw [h'] at h; simp at h
      · exact ⟨hlt.1, hlt.2, by rw [h']⟩
    · rw [this] at h; simp at h
  have hA : ∀ l < c.gs, (s.rd t l).1 ≠ 2 → (l < c.tc → l ≤ ptr → ptr - l ≠ 0 ∧ (s.rd t l).2 = c.base.gsum (ptr - l)) ∧ (¬ (l < c.tc ∧ l ≤ ptr) → (s.rd t l).2 = 0) := by
    intro l hl h
    have := hrd l hl
    split at this
    · rename_i hlt
      refine ⟨fun _ _ => ?_, fun hn => absurd hlt hn⟩
      rcases this with ⟨h0, h'⟩ | h'
      · exact ⟨h0, by rw [h']⟩
      · rw [h'] at h; exact absurd rfl h
    · rename_i hlt
      exact ⟨fun a b => absurd ⟨a, b⟩ hlt, fun _ => by rw [this]⟩
  unfold L6State.round
  simp only
  rw [redAdd_eq, hsum]
  split
  · rename_i hgt
    have hex : ∃ l < c.gs, (s.rd t l).1 = 2 := by
      have : 0 < ((List.range c.gs).filter fun k => decide ((s.rd t k).1 = 2)).length := by omega
      obtain ⟨l, hl⟩ := List.exists_mem_of_length_pos this
      rw [List.mem_filter, List.mem_range, decide_eq_true_eq] at hl
      exact ⟨l, hl.1, hl.2⟩
    obtain ⟨l0, hl0, hl0'⟩ := hex
    have hgsl := hc.gsl
    obtain ⟨m, hm, hme⟩ := redMin_mem (fun l => if (s.rd t l).1 = 2 then l else c.gs) c.gs hc.gs (by intro k hk; split <;> omega)
    have hle := redMin_le (fun l => if (s.rd t l).1 = 2 then l else c.gs) c.gs
    generalize redMin (fun l => if (s.rd t l).1 = 2 then l else c.gs) c.gs = p at *
    have hpl : p ≤ l0 := by have := hle l0 hl0; rw [if_pos hl0'] at this; exact this
    have hpm : p = m ∧ (s.rd t m).1 = 2 := by
      split at hme
      · rename_i h; exact ⟨hme, h⟩
      · omega
    obtain ⟨rfl, hp2⟩ := hpm
    obtain ⟨q1, q2, q3⟩ := hP p hm hp2
    have hbefore : ∀ l < p, (s.rd t l).1 ≠ 2 := by
      intro l hl h
      have := hle l (by omega)
      rw [if_pos h] at this
      omega
    have hval : redAdd (fun l => if l ≤ p then (s.rd t l).2 else 0) c.gs = pre c.base.w ((ptr + 1) * c.gs) := by
      rw [redAdd_eq, pre_split _ (p + 1) c.gs (by omega) (fun k hk _ => if_neg (by omega))]
      simp only [pre]
      rw [if_pos (Nat.le_refl _), q3, ← look_sum c ptr p (by omega), show ptr + 1 - p = ptr - p + 1 by omega]
      congr 1
      apply pre_congr6
      intro k hk
      rw [if_pos (by omega)]
      exact ((hA k (by omega) (hbefore k hk)).1 (by omega) (by omega)).2
    refine ⟨L6Inv_upd c L s _ t hi ht (fun k hk => L6setPc_ne _ _ _ _ hk) rfl (fun _ _ => rfl) rfl (fun _ _ _ => rfl) rfl rfl ?_, ?_⟩
    · unfold L6PcOk
      rw [L6setPc_self]
      refine ⟨h2, ?_, ?_⟩
      · rw [hval, h4]
      · exact Or.inl ⟨by omega, h1⟩
    · rw [L6setPc_self, hpc]; intro h; cases h
  · rename_i hle
    have hno : ∀ l < c.gs, (s.rd t l).1 ≠ 2 := by
      intro l hl h
      have : 0 < ((List.range c.gs).filter fun k => decide ((s.rd t k).1 = 2)).length :=
        List.length_pos_of_mem (List.mem_filter.2 ⟨List.mem_range.2 hl, by rw [decide_eq_true_eq]; exact h⟩)
      omega
    have hge : c.tc ≤ ptr := by
      by_contra hlt
      exact ((hA ptr (by omega) (hno ptr (by omega))).1 (by omega) (Nat.le_refl _)).1 (by omega)
    have hG : c.G < 2 ^ 32 := Nat.lt_of_le_of_lt (Nat.le_mul_of_pos_right _ hc.gs) hc.small
    have hu : u32sub ptr c.tc = ptr - c.tc := by unfold u32sub; omega
    rw [if_pos hge]
    have hval : redAdd (fun l => (s.rd t l).2) c.gs + pre c.base.w ((ptr + 1 - c.tc) * c.gs) = pre c.base.w ((ptr + 1) * c.gs) := by
      rw [redAdd_eq, pre_split _ c.tc c.gs htc (fun k hk hk2 => (hA k hk2 (hno k hk2)).2 (by omega)), ← look_sum c ptr c.tc (by omega)]
      congr 1
      apply pre_congr6
      intro k hk
      exact ((hA k (by omega) (hno k (by omega))).1 (by omega) (by omega)).2
    refine ⟨L6Inv_upd c L s _ t hi ht (fun k hk => L6setPc_ne _ _ _ _ hk) rfl (fun _ _ => rfl) rfl (fun k l hk => ?_) rfl rfl ?_, ?_⟩
    · show (if k = t then none else s.reads k l) = _
      rw [if_neg hk]
    · unfold L6PcOk
      rw [L6setPc_self]
      refine ⟨by rw [if_pos rfl]; exact h1, h2, by omega, ?_, (fun h => by cases h), fun l v hv => ?_⟩
      · rw [hu, show ptr - c.tc + 1 = ptr + 1 - c.tc by omega, BitVec.add_assoc, hval, h4]
      · have hv' : (if t = t then none else s.reads t l) = some v := hv
        rw [if_pos rfl] at hv'
        cases hv'
    · rw [L6setPc_self, hpc, hu]
      intro h
      injection h with h _ _
      omega

theorem act6_ok (c : L6Cfg) (L : Nat) (hc : L6Ok c L) (s : L6State) (hi : L6Inv c L s) (a : L6Act) :
    (s.act c a = .blocked) ∨ ∃ s', s.act c a = .ok s' ∧ L6Inv c L s' := by
  cases a with
  | start t =>
    simp only [L6State.act]
    split
    · rename_i h
      obtain ⟨h1, h2, h3⟩ := h
      right
      refine ⟨_, rfl, ?_⟩
      have hok := hi.pcs t h1
      unfold L6PcOk at hok
      rw [h2] at hok
      refine L6Inv_upd c L s _ t hi h1 (fun k hk => L6setPc_ne _ _ _ _ hk) rfl (fun _ _ => rfl) rfl (fun _ _ _ => rfl) rfl rfl ?_
      unfold L6PcOk; rw [L6setPc_self]; exact hok
    · left; rfl
  | load t l =>
    simp only [L6State.act]
    split
    · rename_i h
      obtain ⟨h1, h2, h3, h4⟩ := h
      right
      have main : ∀ v, v = c.base.w (t * c.gs + l) →
          L6Inv c L { s with regs := fun t' l' => if t' = t ∧ l' = l then some v else s.regs t' l' } := by
        intro v hv
        refine ⟨hi.tl, hi.bl, ?_, ?_, hi.wri, hi.idle⟩
        · intro t' l' v' h'
          simp only at h'
          split at h'
          · rename_i he
            rw [he.1, he.2, ← Option.some.inj h', hv]
          · exact hi.regs t' l' v' h'
        · intro k hk
          by_cases hkt : k = t
          · subst hkt
            have := hi.pcs k hk
            unfold L6PcOk at this ⊢
            simp only [h3] at this ⊢
            exact this
          · exact L6PcOk_congr c s _ k rfl rfl (fun l' => by simp [hkt]) (fun _ => rfl) (hi.pcs k hk)
      split
      · rename_i hg
        have hin := hc.inp
        have hgi : c.inp[t * c.gs + l - 1]? = some (c.inp[t * c.gs + l - 1]'(by omega)) := List.getElem?_eq_getElem (by omega)
        have hsrc : c.base.src (t * c.gs + l) = some (t * c.gs + l - 1) := by
          unfold LBCfg.src
          rw [if_pos (show c.base.shifted = true from rfl)]
          exact if_pos hg
        rw [hgi]
        exact ⟨_, rfl, main _ (by rw [src_w c.base _ _ hsrc]; show _ = (c.inp[_]?).getD 0; rw [hgi]; rfl)⟩
      · rename_i hg
        refine ⟨_, rfl, main 0 ?_⟩
        have hsrc : c.base.src (t * c.gs + l) = none := by
          unfold LBCfg.src
          rw [if_pos (show c.base.shifted = true from rfl)]
          exact if_neg hg
        unfold LBCfg.w
        rw [hsrc]
    · left; rfl
  | barrier t =>
    simp only [L6State.act]
    split
    · rename_i h
      obtain ⟨h1, h2, h3⟩ := h
      right
      refine ⟨_, rfl, ?_⟩
      have hok := hi.pcs t h1
      unfold L6PcOk at hok
      rw [h2] at hok
      have hG : c.G < 2 ^ 32 := Nat.lt_of_le_of_lt (Nat.le_mul_of_pos_right _ hc.gs) hc.small
      refine L6Inv_upd c L s _ t hi h1 (fun k hk => L6setPc_ne _ _ _ _ hk) rfl (fun _ _ => rfl) rfl (fun _ _ _ => rfl) rfl rfl ?_
      unfold L6PcOk; rw [L6setPc_self]
      by_cases h0 : t = 0
      · subst h0
        rw [if_neg (by omega)]
        refine ⟨h3, by simp [pre], ?_⟩
        exact Or.inr ⟨rfl, hok.1⟩
      · rw [if_pos h0]
        have hu : u32sub t 1 = t - 1 := by unfold u32sub; omega
        refine ⟨hok.1, h3, by omega, by rw [hu, show t - 1 + 1 = t by omega]; simp, fun _ => hok.2 0, fun l v hv => ?_⟩
        have : s.reads t l = some v := hv
        rw [hok.2 l] at this
        cases this
    · left; rfl
  | post t =>
    simp only [L6State.act]
    by_cases ht : t < c.G
    · rw [if_pos ht]
      have hok := hi.pcs t ht
      unfold L6PcOk at hok
      have hlt : t < s.tiles.length := by rw [hi.tl]; exact ht
      have hreg : (∀ l < c.gs, s.regs t l ≠ none) → redAdd (s.reg t) c.gs = c.base.gsum t := fun h => reg_pre c L s hi t c.gs h
      cases hpc : s.pc t with
      | idle => left; rfl
      | loading => left; rfl
      | look ptr acc posted =>
        cases posted with
        | true => left; rfl
        | false =>
          right
          rw [hpc] at hok
          obtain ⟨h1, h2, h3, h4, h5, h6⟩ := hok
          simp only
          unfold wr
          rw [if_pos hlt]
          refine ⟨_, rfl, ?_⟩
          refine L6Inv_upd c L s _ t hi ht (fun k hk => L6setPc_ne _ _ _ _ hk) (by simp [L6State.setPc])
            (fun k hk => by simp only [L6State.setPc]; rw [List.getElem?_set_ne (by omega)]) rfl (fun _ _ _ => rfl) rfl rfl ?_
          unfold L6PcOk
          rw [L6setPc_self]
          refine ⟨?_, h2, h3, h4, (fun h => by cases h), h6⟩
          simp only [L6State.setPc]
          rw [List.getElem?_set_self hlt, hreg h2, if_pos trivial]
      | out acc posted =>
        cases posted with
        | true => left; rfl
        | false =>
          right
          rw [hpc] at hok
          obtain ⟨h1, h2, h3⟩ := hok
          simp only
          unfold wr
          rw [if_pos hlt]
          refine ⟨_, rfl, ?_⟩
          refine L6Inv_upd c L s _ t hi ht (fun k hk => L6setPc_ne _ _ _ _ hk) (by simp [L6State.setPc])
            (fun k hk => by simp only [L6State.setPc]; rw [List.getElem?_set_ne (by omega)]) rfl (fun _ _ _ => rfl) rfl rfl ?_
          unfold L6PcOk
          rw [L6setPc_self]
          refine ⟨h1, h2, ?_⟩
          rw [if_pos rfl]
          simp only [L6State.setPc]
          have hg := pre_group c.base t
          have h4 : c.base.gs = c.gs := rfl
          rw [h4] at hg
          rw [List.getElem?_set_self hlt, hreg h1, h2, hg]
    · rw [if_neg ht]; left; rfl
  | read t l =>
    simp only [L6State.act]
    cases hpc : s.pc t with
    | idle => left; rfl
    | loading => left; rfl
    | out a p => left; rfl
    | look ptr acc posted =>
      simp only
      split
      · rename_i h
        obtain ⟨ht, hl, hn, h0⟩ := h
        right
        have hok := hi.pcs t ht
        unfold L6PcOk at hok
        rw [hpc] at hok
        obtain ⟨h1, h2, h3, h4, h5, h6⟩ := hok
        have main : ∀ w, (if l < c.tc ∧ l ≤ ptr then TileVal c (ptr - l) w else w = (1, 0)) →
            L6Inv c L { s with reads := fun t' l' => if t' = t ∧ l' = l then some w else s.reads t' l' } := by
          intro w hw
          refine L6Inv_upd c L s _ t hi ht (fun _ _ => rfl) rfl (fun _ _ => rfl) rfl (fun k l' hk => if_neg (fun h => hk h.1)) rfl rfl ?_
          unfold L6PcOk
          simp only
          rw [hpc]
          refine ⟨h1, h2, h3, h4, fun hp => ?_, fun l' v hv => ?_⟩
          · have hl0 : (0 : Nat) ≠ l := by
              intro h; have := h0 h.symm; rw [hp] at this; cases this
            rw [if_neg (fun h => hl0 h.2)]
            exact h5 hp
          · skip
            by_cases he : l' = l
            · rw [if_pos ⟨trivial, he⟩] at hv
              rw [he, ← Option.some.inj hv]
              exact hw
            · rw [if_neg (fun h => he h.2)] at hv
              exact h6 l' v hv
        split
        · rename_i hlt
          have hpt : ptr - l < s.tiles.length := by rw [hi.tl]; omega
          have hgp : s.tiles[ptr - l]? = some s.tiles[ptr - l] := List.getElem?_eq_getElem hpt
          rw [hgp]
          simp only
          generalize s.tiles[ptr - l] = v at hgp
          have hq := hi.pcs (ptr - l) (by omega)
          have hcase : v = pack32 0 0 ∨ (ptr - l ≠ 0 ∧ v = pack32 1 (c.base.gsum (ptr - l))) ∨ v = pack32 2 (pre c.base.w ((ptr - l + 1) * c.gs)) := by
            unfold L6PcOk at hq
            rw [hgp] at hq
            cases hpp : s.pc (ptr - l) with
            | idle => rw [hpp] at hq; left; exact Option.some.inj hq.1
            | loading => rw [hpp] at hq; left; exact Option.some.inj hq.1
            | look p a q =>
              rw [hpp] at hq
              have h' := Option.some.inj hq.1
              have hq3 := hq.2.2.1
              cases q with
              | true => right; left; exact ⟨by omega, h'⟩
              | false => left; exact h'
            | out a q =>
              rw [hpp] at hq
              have h' := hq.2.2
              cases q with
              | true => right; right; exact Option.some.inj h'
              | false =>
                rcases h' with ⟨q0, q1⟩ | ⟨q0, q1⟩
                · right; left; exact ⟨q0, Option.some.inj q1⟩
                · left; exact Option.some.inj q1
          rcases hcase with hv | ⟨hp0, hv⟩ | hv
          · rw [hv, unpack_pack32, if_pos rfl]; exact ⟨s, rfl, hi⟩
          · rw [hv, unpack_pack32, if_neg (by simp)]
            exact ⟨_, rfl, main _ (by rw [if_pos hlt]; exact Or.inl ⟨hp0, rfl⟩)⟩
          · rw [hv, unpack_pack32, if_neg (by simp)]
            exact ⟨_, rfl, main _ (by rw [if_pos hlt]; exact Or.inr rfl)⟩
        · rename_i hlt
          exact ⟨_, rfl, main _ (by rw [if_neg hlt])⟩
      · left; rfl
  | reduce t =>
    simp only [L6State.act]
    cases hpc : s.pc t with
    | idle => left; rfl
    | loading => left; rfl
    | out a p => left; rfl
    | look ptr acc posted =>
      simp only
      split
      · rename_i h
        right
        exact ⟨_, rfl, (round_ok c L hc s hi t h.1 ptr acc posted hpc h.2).1⟩
      · left; rfl
  | write t l =>
    simp only [L6State.act]
    cases hpc : s.pc t with
    | idle => left; rfl
    | loading => left; rfl
    | look p a q => left; rfl
    | out acc posted =>
      simp only
      split
      · rename_i h
        obtain ⟨h1, h2, h3, h4, h5⟩ := h
        right
        have hout := hc.out
        have hlt : t * c.gs + l < s.buf.length := by rw [hi.bl]; omega
        unfold wr
        rw [if_pos hlt]
        refine ⟨_, rfl, ?_⟩
        have hok := hi.pcs t h1
        unfold L6PcOk at hok
        rw [hpc] at hok
        obtain ⟨hfull, hacc, -⟩ := hok
        have hval : acc + redAdd (s.reg t) (l + 1) = exclSpec c.inp (t * c.gs + l) := by
          rw [reg_pre c L s hi t (l + 1) (fun k hk => hfull k (by omega)), hacc, ← pre_add, ← Nat.add_assoc]
          exact shifted_pre c.base rfl hc.inp _ h3
        refine ⟨hi.tl, by simp [hi.bl], hi.regs, ?_, ?_, hi.idle⟩
        · intro k hk; exact L6PcOk_congr c s _ k rfl rfl (fun _ => rfl) (fun _ => rfl) (hi.pcs k hk)
        · intro g hg
          simp only at hg ⊢
          by_cases hge : g = t * c.gs + l
          · subst hge
            exact ⟨h3, by rw [List.getElem?_set_self hlt, hval]⟩
          · rw [if_neg hge] at hg
            obtain ⟨q1, q2⟩ := hi.wri g hg
            exact ⟨q1, by rw [List.getElem?_set_ne (by omega)]; exact q2⟩
      · left; rfl

theorem run6_inv (c : L6Cfg) (L : Nat) (hc : L6Ok c L) : ∀ (as : List L6Act) (s : L6State), L6Inv c L s →
    ∃ s', s.run c as = some s' ∧ L6Inv c L s' := by
  intro as
  induction as with
  | nil => intro s h; exact ⟨s, rfl, h⟩
  | cons a r ih =>
    intro s h
    simp only [L6State.run]
    rcases act6_ok c L hc s h a with hb | ⟨s', hs, hs'⟩
    · rw [hb]; exact ih s h
    · rw [hs]; exact ih s' hs'

end Shamrock
