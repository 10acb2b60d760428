import Verif.Proof.Scan
/-! Invariant of the decoupled look-back scan. -/
namespace Shamrock

/-- Value item `g` is meant to load: the original input. -/
def LBCfg.w (c : LBCfg) (g : Nat) : W32 :=
  match c.src g with
  | none => 0
  | some i => (c.inp[i]?).getD 0

/-- Sum of the inputs of group `t`. -/
def LBCfg.gsum (c : LBCfg) (t : Nat) : W32 := pre (fun l => c.w (t * c.gs + l)) c.gs

theorem pre_add (f : Nat → W32) (a : Nat) : ∀ n, pre f (a + n) = pre f a + pre (fun k => f (a + k)) n := by
  intro n
  induction n with
  | zero => simp [pre]
  | succ n ih => rw [← Nat.add_assoc, pre, pre, ih, BitVec.add_assoc]

theorem pre_group (c : LBCfg) (t : Nat) : pre c.w ((t + 1) * c.gs) = pre c.w (t * c.gs) + c.gsum t := by
  rw [Nat.add_mul, Nat.one_mul, pre_add]; rfl

/-- Expected final value at index `g`. -/
def LBCfg.outval (c : LBCfg) (g : Nat) : W32 := if c.shifted then pre c.w (g + 1) else pre c.w g

/-- Invariant of one group. -/
def LBPcOk (c : LBCfg) (s : LBState) (t : Nat) : Prop :=
  match s.pc t with
  | .idle => s.tiles[t]? = some (pack32 0 0)
  | .loading => s.tiles[t]? = some (pack32 0 0)
  | .lead0 => s.tiles[t]? = some (pack32 0 0) ∧ s.regSum t c.gs = c.gsum t ∧ (∀ l < c.gs, s.regs t l ≠ none)
  | .look ptr acc => s.tiles[t]? = some (pack32 1 (c.gsum t)) ∧ s.regSum t c.gs = c.gsum t ∧ (∀ l < c.gs, s.regs t l ≠ none) ∧
      ptr < t ∧ acc + pre c.w ((ptr + 1) * c.gs) = pre c.w (t * c.gs)
  | .haveAcc acc => ((t ≠ 0 ∧ s.tiles[t]? = some (pack32 1 (c.gsum t))) ∨ (t = 0 ∧ s.tiles[t]? = some (pack32 0 0))) ∧
      s.regSum t c.gs = c.gsum t ∧ (∀ l < c.gs, s.regs t l ≠ none) ∧ acc = pre c.w (t * c.gs)
  | .finish acc => s.tiles[t]? = some (pack32 2 (pre c.w ((t + 1) * c.gs))) ∧ (∀ l < c.gs, s.regs t l ≠ none) ∧
      acc = pre c.w (t * c.gs)

/-- The whole invariant. -/
structure LBInv (c : LBCfg) (L : Nat) (s : LBState) : Prop where
  tl : s.tiles.length = c.G
  bl : s.buf.length = L
  regs : ∀ t l v, s.regs t l = some v → v = c.w (t * c.gs + l)
  pcs : ∀ t < c.G, LBPcOk c s t
  idle : ∀ t, c.G ≤ t → s.pc t = .idle
  wri : ∀ g, s.written g = true → g < c.len ∧ s.buf[g]? = some (c.outval g) ∧ ∃ acc, s.pc (g / c.gs) = .finish acc
  unw : c.inPlace = true → ∀ g : Nat, s.written g = false → s.buf[g]? = c.inp[g]?
  dyn : c.dyn = true → ∀ t, s.pc t ≠ .idle ↔ t < s.started

/-- Static requirements of a launch. -/
structure LBOk (c : LBCfg) (L : Nat) : Prop where
  gs : 0 < c.gs
  cover : c.len ≤ c.G * c.gs
  small : c.G * c.gs < 2 ^ 32
  inp : c.len ≤ c.inp.length
  out : c.len ≤ L
  inL : c.inPlace = true → c.inp.length = L
  noShiftInPlace : ¬ (c.shifted = true ∧ c.inPlace = true)

theorem regSum_full (c : LBCfg) (s : LBState) (t : Nat) (hr : ∀ t l v, s.regs t l = some v → v = c.w (t * c.gs + l)) :
    ∀ n, (∀ l < n, s.regs t l ≠ none) → s.regSum t n = pre (fun l => c.w (t * c.gs + l)) n := by
  intro n
  induction n with
  | zero => intro _; rfl
  | succ n ih =>
    intro h
    simp only [LBState.regSum, pre]
    rw [ih (fun l hl => h l (by omega))]
    cases hc : s.regs t n with
    | none => exact absurd hc (h n (by omega))
    | some v => rw [hr t n v hc]; rfl

theorem LBPcOk_congr (c : LBCfg) (s s' : LBState) (t : Nat) (h1 : s'.pc t = s.pc t) (h2 : s'.tiles[t]? = s.tiles[t]?)
    (h3 : ∀ l, s'.regs t l = s.regs t l) (h : LBPcOk c s t) : LBPcOk c s' t := by
  have h4 : ∀ n, s'.regSum t n = s.regSum t n := by
    intro n
    induction n with
    | zero => rfl
    | succ n ih => simp only [LBState.regSum, ih, h3]
  unfold LBPcOk at *
  rw [h1, h2]
  simp only [h3, h4]
  exact h

theorem regSum_eq (s s' : LBState) (h : s'.regs = s.regs) (t : Nat) : ∀ n, s'.regSum t n = s.regSum t n := by
  intro n
  induction n with
  | zero => rfl
  | succ n ih => simp only [LBState.regSum, ih, h]

theorem setPc_self (s : LBState) (t : Nat) (p : LBPc) : (s.setPc t p).pc t = p := by simp [LBState.setPc]
theorem setPc_ne (s : LBState) (t k : Nat) (p : LBPc) (h : k ≠ t) : (s.setPc t p).pc k = s.pc k := by simp [LBState.setPc, h]

theorem LBInv_init (c : LBCfg) (out0 : List W32) (L : Nat) (hc : LBOk c L) (ho : out0.length = L) :
    LBInv c L (LBState.init c out0) := by
  refine ⟨by simp [LBState.init], ?_, ?_, ?_, ?_, ?_, ?_, ?_⟩
  · unfold LBState.init
    by_cases h : c.inPlace = true
    · simp [h, hc.inL h]
    · simp [h, ho]
  · intro t l v h; simp [LBState.init] at h
  · intro t ht
    unfold LBPcOk
    simp [LBState.init, ht]
  · intro t _; rfl
  · intro g h; simp [LBState.init] at h
  · intro h g _; simp [LBState.init, h]
  · intro _ t; simp [LBState.init]

/-- Changing only the pc of `t` (from non finish) and possibly tile `t`. -/
theorem LBInv_upd (c : LBCfg) (L : Nat) (s s' : LBState) (t : Nat) (hi : LBInv c L s) (ht : t < c.G)
    (hnf : ∀ acc, s.pc t ≠ .finish acc) (hpc : ∀ k, k ≠ t → s'.pc k = s.pc k) (htl : s'.tiles.length = s.tiles.length)
    (htile : ∀ k : Nat, k ≠ t → s'.tiles[k]? = s.tiles[k]?) (hregs : s'.regs = s.regs) (hbuf : s'.buf = s.buf)
    (hwr : s'.written = s.written) (hok : LBPcOk c s' t) (hdyn : c.dyn = true → ∀ k, s'.pc k ≠ .idle ↔ k < s'.started) :
    LBInv c L s' := by
  refine ⟨by rw [htl, hi.tl], by rw [hbuf, hi.bl], by rw [hregs]; exact hi.regs, ?_, ?_, ?_, ?_, hdyn⟩
  · intro k hk
    by_cases hkt : k = t
    · rw [hkt]; exact hok
    · exact LBPcOk_congr c s s' k (hpc k hkt) (htile k hkt) (fun l => by rw [hregs]) (hi.pcs k hk)
  · intro k hk; rw [hpc k (by omega)]; exact hi.idle k hk
  · intro g hg
    rw [hwr] at hg
    obtain ⟨h1, h2, acc, h3⟩ := hi.wri g hg
    refine ⟨h1, by rw [hbuf]; exact h2, acc, ?_⟩
    rw [hpc _ (by intro he; rw [he] at h3; exact hnf acc h3)]; exact h3
  · intro hp g hg
    rw [hwr] at hg
    rw [hbuf]; exact hi.unw hp g hg

theorem unpack_pack32 (a b : W32) : unpack32 (pack32 a b) = (a, b) := C29_unpack_pack a b

theorem lead_ok (c : LBCfg) (L : Nat) (hc : LBOk c L) (s : LBState) (hi : LBInv c L s) (t : Nat) (ht : t < c.G) :
    (s.leadStep c t = .blocked) ∨ ∃ s', s.leadStep c t = .ok s' ∧ LBInv c L s' := by
  have hG : c.G < 2 ^ 32 := by
    have h1 := hc.gs; have h2 := hc.small
    exact Nat.lt_of_le_of_lt (Nat.le_mul_of_pos_right _ h1) h2
  have hok := hi.pcs t ht
  unfold LBState.leadStep
  unfold LBPcOk at hok
  have hdynk : ∀ (p : LBPc) (s1 : LBState), s1.pc = s.pc → s1.started = s.started → s.pc t ≠ .idle → p ≠ .idle →
      (c.dyn = true → ∀ k, (s1.setPc t p).pc k ≠ .idle ↔ k < (s1.setPc t p).started) := by
    intro p s1 hs1 hst h1 h2 hd k
    have hd := hi.dyn hd k
    by_cases hk : k = t
    · subst hk
      rw [setPc_self]
      have := hd.1 h1
      simp only [LBState.setPc, hst]
      exact ⟨fun _ => this, fun _ => h2⟩
    · rw [setPc_ne _ _ _ _ hk]
      simp only [LBState.setPc, hst, hs1]
      exact hd
  cases hpc : s.pc t with
  | idle => left; rfl
  | loading => left; rfl
  | finish acc => left; rfl
  | lead0 =>
    right
    rw [hpc] at hok
    simp only at hok ⊢
    by_cases h0 : t = 0
    · rw [if_neg (by simpa using h0)]
      refine ⟨_, rfl, ?_⟩
      refine LBInv_upd c L s _ t hi ht (by rw [hpc]; intro acc h; cases h) (fun k hk => setPc_ne _ _ _ _ hk) rfl
        (fun _ _ => rfl) rfl rfl rfl ?_ (hdynk _ s rfl rfl (by rw [hpc]; intro h; cases h) (by intro h; cases h))
      unfold LBPcOk
      rw [setPc_self]
      refine ⟨Or.inr ⟨h0, hok.1⟩, Eq.trans (regSum_eq s _ (by rfl) t _) hok.2.1, hok.2.2, ?_⟩
      subst h0; simp [pre]
    · rw [if_pos h0]
      have hlt : t < s.tiles.length := by rw [hi.tl]; exact ht
      unfold wr
      rw [if_pos hlt]
      refine ⟨_, rfl, ?_⟩
      refine LBInv_upd c L s _ t hi ht (by rw [hpc]; intro acc h; cases h) (fun k hk => setPc_ne _ _ _ _ hk) (by simp [LBState.setPc])
        (fun k hk => by simp only [LBState.setPc]; rw [List.getElem?_set_ne (by omega)]) rfl rfl rfl ?_
        (hdynk _ { s with tiles := _ } rfl rfl (by rw [hpc]; intro h; cases h) (by intro h; cases h))
      unfold LBPcOk
      rw [setPc_self]
      have hu : u32sub t 1 = t - 1 := by unfold u32sub; omega
      refine ⟨?_, Eq.trans (regSum_eq s _ (by rfl) t _) hok.2.1, hok.2.2, by omega, ?_⟩
      · simp only [LBState.setPc]
        rw [List.getElem?_set_self hlt, hok.2.1]
      · rw [hu, show t - 1 + 1 = t by omega]; simp
  | look ptr acc =>
    right
    rw [hpc] at hok
    simp only at hok ⊢
    obtain ⟨h1, h2, h3, h4, h5⟩ := hok
    have hpt : ptr < s.tiles.length := by rw [hi.tl]; omega
    rw [List.getElem?_eq_getElem hpt]
    simp only
    have hgp : s.tiles[ptr]? = some s.tiles[ptr] := List.getElem?_eq_getElem hpt
    generalize s.tiles[ptr] = v at hgp
    have hq := hi.pcs ptr (by omega)
    -- possible contents of the tile
    have hcase : v = pack32 0 0 ∨ (ptr ≠ 0 ∧ v = pack32 1 (c.gsum ptr)) ∨ v = pack32 2 (pre c.w ((ptr + 1) * c.gs)) := by
      unfold LBPcOk at hq
      cases hpp : s.pc ptr with
      | idle => rw [hpp] at hq; left; rw [hgp] at hq; exact Option.some.inj hq
      | loading => rw [hpp] at hq; left; rw [hgp] at hq; exact Option.some.inj hq
      | lead0 => rw [hpp] at hq; left; have := hq.1; rw [hgp] at this; exact Option.some.inj this
      | look p a =>
        rw [hpp] at hq; right; left
        have := hq.1; rw [hgp] at this
        have h' := hq.2.2.2.1
        exact ⟨by omega, Option.some.inj this⟩
      | haveAcc a =>
        rw [hpp] at hq
        rcases hq.1 with ⟨q0, q1⟩ | ⟨q0, q1⟩
        · rw [hgp] at q1; right; left; exact ⟨q0, Option.some.inj q1⟩
        · rw [hgp] at q1; left; exact Option.some.inj q1
      | finish a => rw [hpp] at hq; right; right; have := hq.1; rw [hgp] at this; exact Option.some.inj this
    rcases hcase with hv | ⟨hp0, hv⟩ | hv
    · rw [hv, unpack_pack32, if_pos rfl]; exact ⟨s, rfl, hi⟩
    · rw [hv, unpack_pack32, if_neg (by simp), if_neg (by simp)]
      refine ⟨_, rfl, ?_⟩
      refine LBInv_upd c L s _ t hi ht (by rw [hpc]; intro acc h; cases h) (fun k hk => setPc_ne _ _ _ _ hk) rfl
        (fun _ _ => rfl) rfl rfl rfl ?_ (hdynk _ s rfl rfl (by rw [hpc]; intro h; cases h) (by intro h; cases h))
      unfold LBPcOk
      rw [setPc_self]
      have hu : u32sub ptr 1 = ptr - 1 := by unfold u32sub; omega
      refine ⟨h1, Eq.trans (regSum_eq s _ (by rfl) t _) h2, h3, by omega, ?_⟩
      rw [hu, show ptr - 1 + 1 = ptr by omega, ← h5, pre_group, BitVec.add_assoc, BitVec.add_comm (c.gsum ptr)]
    · rw [hv, unpack_pack32, if_neg (by simp), if_pos rfl]
      refine ⟨_, rfl, ?_⟩
      refine LBInv_upd c L s _ t hi ht (by rw [hpc]; intro acc h; cases h) (fun k hk => setPc_ne _ _ _ _ hk) rfl
        (fun _ _ => rfl) rfl rfl rfl ?_ (hdynk _ s rfl rfl (by rw [hpc]; intro h; cases h) (by intro h; cases h))
      unfold LBPcOk
      rw [setPc_self]
      exact ⟨Or.inl ⟨by omega, h1⟩, Eq.trans (regSum_eq s _ (by rfl) t _) h2, h3, h5⟩
  | haveAcc acc =>
    right
    rw [hpc] at hok
    simp only at hok ⊢
    obtain ⟨h1, h2, h3, h4⟩ := hok
    have hlt : t < s.tiles.length := by rw [hi.tl]; exact ht
    unfold wr
    rw [if_pos hlt]
    refine ⟨_, rfl, ?_⟩
    refine LBInv_upd c L s _ t hi ht (by rw [hpc]; intro acc h; cases h) (fun k hk => setPc_ne _ _ _ _ hk) (by simp [LBState.setPc])
      (fun k hk => by simp only [LBState.setPc]; rw [List.getElem?_set_ne (by omega)]) rfl rfl rfl ?_
      (hdynk _ { s with tiles := _ } rfl rfl (by rw [hpc]; intro h; cases h) (by intro h; cases h))
    unfold LBPcOk
    rw [setPc_self]
    refine ⟨?_, h3, h4⟩
    simp only [LBState.setPc]
    rw [List.getElem?_set_self hlt, h2, h4, pre_group]

theorem src_w (c : LBCfg) (g i : Nat) (h : c.src g = some i) : c.w g = (c.inp[i]?).getD 0 := by
  unfold LBCfg.w; rw [h]

theorem act_ok (c : LBCfg) (L : Nat) (hc : LBOk c L) (s : LBState) (hi : LBInv c L s) (a : LBAct) :
    (s.act c a = .blocked) ∨ ∃ s', s.act c a = .ok s' ∧ LBInv c L s' := by
  cases a with
  | start t =>
    simp only [LBState.act]
    split
    · rename_i h
      obtain ⟨h1, h2, h3, h4⟩ := h
      right
      refine ⟨_, rfl, ?_⟩
      have hok := hi.pcs t h1
      unfold LBPcOk at hok
      rw [h2] at hok
      refine LBInv_upd c L s _ t hi h1 (by rw [h2]; intro acc h; cases h) (fun k hk => setPc_ne _ _ _ _ hk) rfl
        (fun _ _ => rfl) rfl rfl rfl ?_ ?_
      · unfold LBPcOk; rw [setPc_self]; exact hok
      · intro hd k
        have h3' := h3 hd
        have hdk := hi.dyn hd k
        by_cases hk : k = t
        · rw [hk, setPc_self]
          simp only [LBState.setPc]
          exact ⟨fun _ => by omega, fun _ h => by cases h⟩
        · rw [setPc_ne _ _ _ _ hk]
          simp only [LBState.setPc]
          rw [hdk]; omega
    · left; rfl
  | load t l =>
    simp only [LBState.act]
    split
    · rename_i h
      obtain ⟨h1, h2, h3, h4⟩ := h
      right
      have main : ∀ v, v = c.w (t * c.gs + l) →
          LBInv c L { s with regs := fun t' l' => if t' = t ∧ l' = l then some v else s.regs t' l' } := by
        intro v hv
        refine ⟨hi.tl, hi.bl, ?_, ?_, hi.idle, hi.wri, hi.unw, hi.dyn⟩
        · intro t' l' v' h'
          simp only at h'
          split at h'
          · rename_i he
            rw [he.1, he.2, ← Option.some.inj h', hv]
          · exact hi.regs t' l' v' h'
        · intro k hk
          by_cases hkt : k = t
          · subst hkt
            have := hi.pcs k hk
            unfold LBPcOk at this ⊢
            simp only [h3] at this ⊢
            exact this
          · exact LBPcOk_congr c s _ k rfl rfl (fun l' => by simp [hkt]) (hi.pcs k hk)
      cases hs : c.src (t * c.gs + l) with
      | none =>
        simp only
        exact ⟨_, rfl, main 0 (by unfold LBCfg.w; rw [hs])⟩
      | some i =>
        simp only
        have hil : i < c.len := by
          unfold LBCfg.src at hs
          split at hs
          · split at hs
            · have := Option.some.inj hs; omega
            · cases hs
          · split at hs
            · have := Option.some.inj hs; omega
            · cases hs
        have hval : (if c.inPlace = true then s.buf else c.inp)[i]? = c.inp[i]? := by
          by_cases hp : c.inPlace = true
          · rw [if_pos hp]
            apply hi.unw hp
            have hns : c.shifted = false := by
              cases hsh : c.shifted
              · rfl
              · exact absurd ⟨hsh, hp⟩ hc.noShiftInPlace
            have hig : i = t * c.gs + l := by
              unfold LBCfg.src at hs
              rw [hns] at hs
              simp only [Bool.false_eq_true, if_false] at hs
              split at hs
              · exact (Option.some.inj hs).symm
              · cases hs
            cases hw : s.written i with
            | false => rfl
            | true =>
              obtain ⟨_, _, acc, ha⟩ := hi.wri i hw
              have hd : i / c.gs = t := by
                rw [hig, Nat.mul_comm, Nat.mul_add_div hc.gs, Nat.div_eq_of_lt h2]; rfl
              rw [hd, h3] at ha; cases ha
          · rw [if_neg hp]
        rw [hval]
        have hin := hc.inp
        have hgi : c.inp[i]? = some (c.inp[i]'(by omega)) := List.getElem?_eq_getElem (by omega)
        rw [hgi]
        exact ⟨_, rfl, main _ (by rw [src_w c _ i hs, hgi]; rfl)⟩
    · left; rfl
  | barrier t =>
    simp only [LBState.act]
    split
    · rename_i h
      obtain ⟨h1, h2, h3⟩ := h
      right
      refine ⟨_, rfl, ?_⟩
      have hok := hi.pcs t h1
      unfold LBPcOk at hok
      rw [h2] at hok
      refine LBInv_upd c L s _ t hi h1 (by rw [h2]; intro acc h; cases h) (fun k hk => setPc_ne _ _ _ _ hk) rfl
        (fun _ _ => rfl) rfl rfl rfl ?_ ?_
      · unfold LBPcOk; rw [setPc_self]
        exact ⟨hok, Eq.trans (regSum_eq s _ (by rfl) t _) (regSum_full c s t hi.regs c.gs h3), h3⟩
      · intro hd k
        have hdk := hi.dyn hd k
        by_cases hk : k = t
        · have := (hi.dyn hd t).1 (by rw [h2]; intro h; cases h)
          rw [hk, setPc_self]
          simp only [LBState.setPc]
          exact ⟨fun _ => this, fun _ h => by cases h⟩
        · rw [setPc_ne _ _ _ _ hk]; exact hdk
    · left; rfl
  | lead t =>
    simp only [LBState.act]
    split
    · rename_i h; exact lead_ok c L hc s hi t h
    · left; rfl
  | write t l =>
    simp only [LBState.act]
    cases hpc : s.pc t with
    | idle => left; rfl
    | loading => left; rfl
    | lead0 => left; rfl
    | look p a => left; rfl
    | haveAcc a => left; rfl
    | finish acc =>
      simp only
      split
      · rename_i h
        obtain ⟨h1, h2, h3, h4⟩ := h
        right
        have hout := hc.out
        have hlt : t * c.gs + l < s.buf.length := by rw [hi.bl]; omega
        unfold wr
        rw [if_pos hlt]
        refine ⟨_, rfl, ?_⟩
        have hok := hi.pcs t h1
        unfold LBPcOk at hok
        rw [hpc] at hok
        obtain ⟨_, hfull, hacc⟩ := hok
        have hval : s.localScan c t l + acc = c.outval (t * c.gs + l) := by
          unfold LBState.localScan LBCfg.outval
          by_cases hs : c.shifted = true
          · rw [if_pos hs, if_pos hs, regSum_full c s t hi.regs (l + 1) (fun k hk => hfull k (by omega)), hacc,
              Nat.add_assoc, pre_add c.w (t * c.gs) (l + 1), BitVec.add_comm]
          · rw [if_neg hs, if_neg hs, regSum_full c s t hi.regs l (fun k hk => hfull k (by omega)), hacc, pre_add, BitVec.add_comm]
        refine ⟨hi.tl, by simp [hi.bl], hi.regs, ?_, hi.idle, ?_, ?_, hi.dyn⟩
        · intro k hk; exact LBPcOk_congr c s _ k rfl rfl (fun _ => rfl) (hi.pcs k hk)
        · intro g hg
          simp only at hg ⊢
          by_cases hge : g = t * c.gs + l
          · subst hge
            refine ⟨h3, ?_, acc, ?_⟩
            · rw [List.getElem?_set_self hlt, hval]
            · rw [Nat.mul_comm, Nat.mul_add_div hc.gs, Nat.div_eq_of_lt h2, Nat.add_zero]; exact hpc
          · rw [if_neg hge] at hg
            obtain ⟨q1, q2, q3⟩ := hi.wri g hg
            exact ⟨q1, by rw [List.getElem?_set_ne (by omega)]; exact q2, q3⟩
        · intro hp g hg
          simp only at hg ⊢
          split at hg
          · cases hg
          · rename_i hge
            rw [List.getElem?_set_ne (by omega)]
            exact hi.unw hp g hg
      · left; rfl

theorem run_inv (c : LBCfg) (L : Nat) (hc : LBOk c L) : ∀ (as : List LBAct) (s : LBState), LBInv c L s →
    ∃ s', s.run c as = some s' ∧ LBInv c L s' := by
  intro as
  induction as with
  | nil => intro s h; exact ⟨s, rfl, h⟩
  | cons a r ih =>
    intro s h
    simp only [LBState.run]
    rcases act_ok c L hc s h a with hb | ⟨s', hs, hs'⟩
    · rw [hb]; exact ih s h
    · rw [hs]; exact ih s' hs'

theorem shifted_pre (c : LBCfg) (hs : c.shifted = true) (hin : c.len ≤ c.inp.length) :
    ∀ g, g < c.len → pre c.w (g + 1) = exclSpec c.inp g := by
  intro g
  induction g with
  | zero =>
    intro h
    simp [pre, exclSpec, LBCfg.w, LBCfg.src, hs]
  | succ g ih =>
    intro h
    have hk : c.inp[g]? = some (c.inp[g]'(by omega)) := List.getElem?_eq_getElem (by omega)
    rw [pre, ih (by omega), exclSpec_succ _ g _ hk]
    congr 1
    have : c.src (g + 1) = some g := by unfold LBCfg.src; rw [if_pos hs, if_pos ⟨by omega, h⟩]; simp
    rw [src_w c _ g this, hk]; rfl

theorem unshifted_pre (c : LBCfg) (hs : c.shifted = false) (hin : c.len ≤ c.inp.length) :
    ∀ g, g ≤ c.len → pre c.w g = exclSpec c.inp g := by
  intro g
  induction g with
  | zero => intro _; simp [pre, exclSpec]
  | succ g ih =>
    intro h
    have hk : c.inp[g]? = some (c.inp[g]'(by omega)) := List.getElem?_eq_getElem (by omega)
    rw [pre, ih (by omega), exclSpec_succ _ g _ hk]
    congr 1
    have : c.src g = some g := by unfold LBCfg.src; rw [hs]; simp; omega
    rw [src_w c _ g this, hk]; rfl

theorem outval_spec (c : LBCfg) (hin : c.len ≤ c.inp.length) (g : Nat) (hg : g < c.len) : c.outval g = exclSpec c.inp g := by
  unfold LBCfg.outval
  cases hs : c.shifted with
  | true => simpa using shifted_pre c hs hin g hg
  | false => simpa using unshifted_pre c hs hin g (by omega)

end Shamrock
