import Verif.Proof.Lookback
/-! C14: exclusive scans; C15: stream compaction. -/
namespace Shamrock

/-- C14: the sequential scan writes at `i` the sum modulo `2^32` of the first `i` inputs. -/
theorem C14_fallback (l : List W32) : (exclSumFallback l).length = l.length ∧
    ∀ i : Nat, i < l.length → (exclSumFallback l)[i]? = some (exclSpec l i) := by
  refine ⟨exclSumLoop_length l 0, fun i h => ?_⟩
  simpa [exclSumFallback] using exclSumLoop_get l 0 i h

/-- C14: the inclusive fallback writes the sum of the first `i + 1` inputs. -/
theorem C14_inclusive_fallback (l : List W32) (i : Nat) (h : i < l.length) :
    (inclSumFallback l)[i]? = some (exclSpec l (i + 1)) := by
  simpa [inclSumFallback] using inclSumLoop_get l 0 i h

/-- C14: the log-step scan (version 1) is exact and never accesses out of bounds, up to `2^30` elements. -/
theorem C14_gpugems_1_partial (l : List W32) (h : l.length ≤ 2 ^ 30) :
    ∃ out, gemsScan1 l = some out ∧ out.length = l.length ∧ ∀ i : Nat, i < l.length → out[i]? = some (exclSpec l i) :=
  gems_main l l.length (Nat.le_refl _) h

/-- C14: versions 2 and 3, for every rounded length `rl ≥ len` (the code uses `roundup_pow2_clz(len)`, C29). -/
theorem C14_gpugems_2_partial (l : List W32) (rl : Nat) (h1 : l.length ≤ rl) (h : rl ≤ 2 ^ 30) :
    ∃ out, gemsScan2 l rl = some out ∧ out.length = rl ∧ ∀ i : Nat, i < l.length → out[i]? = some (exclSpec l i) :=
  gems_main l rl h1 h

/-- C14 violation: above `2^30` elements the `int offset` of the log-step scan overflows (undefined behaviour) for every
input. -/
theorem C14_gpugems_overflow_defect (l : List W32) (h : 2 ^ 30 < l.length) : gemsScan1 l = none := by
  unfold gemsScan1
  cases gemsInit l l.length l.length with
  | none => rfl
  | some l0 =>
    simp only [Option.bind_eq_bind, Option.bind_some]
    exact gemsLoop_overflow l.length h 30 33 0 l0 (by omega)

/-- C14: under every schedule of the groups' memory accesses, the decoupled look-back scan never accesses out of bounds, and
when the kernel is over index `i` of the output holds the sum modulo `2^32` of the first `i` inputs. This covers
`exclusive_sum_atomic_decoupled_v5`, `…_v5_usm` (shifted, out of place) and `…_v5_usm_in_place` (not shifted, in place), any
group size, any occupancy, dynamic or static tile ids. -/
theorem C14_lookback_exact (c : LBCfg) (out0 : List W32) (hc : LBOk c out0.length) (schedule : List LBAct) :
    ∃ s, (LBState.init c out0).run c schedule = some s ∧
      (s.terminal c → ∀ i : Nat, i < c.len → s.buf[i]? = some (exclSpec c.inp i)) := by
  obtain ⟨s, h1, h2⟩ := run_inv c _ hc schedule _ (LBInv_init c out0 _ hc rfl)
  refine ⟨s, h1, fun ht i hi => ?_⟩
  have hgs := hc.gs
  have hcov := hc.cover
  have hlt : i / c.gs < c.G := (Nat.div_lt_iff_lt_mul hgs).2 (by omega)
  have hcomp := ht _ hlt
  unfold LBState.complete at hcomp
  rw [Bool.and_eq_true, List.all_eq_true] at hcomp
  have := hcomp.2 (i % c.gs) (List.mem_range.2 (Nat.mod_lt _ hgs))
  have he : i / c.gs * c.gs + i % c.gs = i := by rw [Nat.mul_comm]; exact Nat.div_add_mod i c.gs
  rw [he, Bool.or_eq_true, decide_eq_true_eq] at this
  rcases this with h | h
  · omega
  · obtain ⟨_, hb, _⟩ := h2.wri i h
    rw [hb, outval_spec c hc.inp i hi]

/-- Whether an action makes progress: it is possible and changes the program counter of the group, loads a missing value or
stores a missing result (a spin on an invalid tile is not progress). -/
def LBProgress (c : LBCfg) (s : LBState) (a : LBAct) : Prop :=
  match a with
  | .lead t => ∃ s', s.act c a = .ok s' ∧ s'.pc t ≠ s.pc t
  | _ => ∃ s', s.act c a = .ok s'

/-- C14: with dynamic tile ids the look-back always makes progress: in every reachable state that is not terminal some
possible action is not a spin, even if only one group at a time can be resident on the device. -/
theorem C14_lookback_progress (c : LBCfg) (out0 : List W32) (hc : LBOk c out0.length) (hd : c.dyn = true) (hK : 0 < c.K)
    (schedule : List LBAct) (s : LBState) (hs : (LBState.init c out0).run c schedule = some s) (hnt : ¬ s.terminal c) :
    ∃ a, LBProgress c s a := by
  obtain ⟨s', h1, hi⟩ := run_inv c _ hc schedule _ (LBInv_init c out0 _ hc rfl)
  rw [hs] at h1
  cases h1
  -- the first group that is not complete
  have hex : ∃ t, t < c.G ∧ s.complete c t = false := by
    by_contra hcon
    apply hnt
    intro t ht
    cases hq : s.complete c t with
    | true => rfl
    | false => exact absurd ⟨t, ht, hq⟩ hcon
  obtain ⟨t, ⟨ht, hq⟩, hmin⟩ : ∃ t, (t < c.G ∧ s.complete c t = false) ∧ ∀ k < t, s.complete c k = true := by
    have := Nat.find_spec hex
    refine ⟨Nat.find hex, this, fun k hk => ?_⟩
    have hnk := Nat.find_min hex hk
    cases hqk : s.complete c k with
    | true => rfl
    | false => exact absurd ⟨by omega, hqk⟩ hnk
  have hfin : ∀ k < t, ∃ acc, s.pc k = .finish acc := by
    intro k hk
    have := hmin k hk
    unfold LBState.complete at this
    rw [Bool.and_eq_true] at this
    have h := this.1
    cases hpk : s.pc k with
    | finish acc => exact ⟨acc, rfl⟩
    | _ => rw [hpk] at h; simp at h
  cases hpc : s.pc t with
  | idle =>
    refine ⟨.start t, ?_⟩
    have hst : t = s.started := by
      have h1 := hi.dyn hd t
      have h2 : ¬ t < s.started := fun h => (h1.2 h) hpc
      by_contra hne
      have h3 : s.started < t := by omega
      obtain ⟨acc, ha⟩ := hfin s.started h3
      have := (hi.dyn hd s.started).1 (by rw [ha]; intro h; cases h)
      omega
    have hres : s.resident c = 0 := by
      unfold LBState.resident
      rw [List.length_eq_zero_iff, List.filter_eq_nil_iff]
      intro k hk hcon
      rw [Bool.and_eq_true, decide_eq_true_eq] at hcon
      have hlt := (hi.dyn hd k).1 hcon.1
      rw [hmin k (by omega)] at hcon
      simp at hcon
    show ∃ s', s.act c (.start t) = .ok s'
    simp only [LBState.act]
    rw [if_pos ⟨ht, hpc, fun _ => hst, by omega⟩]
    exact ⟨_, rfl⟩
  | loading =>
    by_cases hall : ∀ l < c.gs, s.regs t l ≠ none
    · refine ⟨.barrier t, ?_⟩
      show ∃ s', s.act c (.barrier t) = .ok s'
      simp only [LBState.act]
      rw [if_pos ⟨ht, hpc, hall⟩]
      exact ⟨_, rfl⟩
    · have hnl : ∃ l, l < c.gs ∧ s.regs t l = none := by
        by_contra hcon
        apply hall
        intro l hl hn
        exact hcon ⟨l, hl, hn⟩
      obtain ⟨l, hl, hr⟩ := hnl
      refine ⟨.load t l, ?_⟩
      show ∃ s', s.act c (.load t l) = .ok s'
      rcases act_ok c _ hc s hi (.load t l) with hb | ⟨s', hs', _⟩
      · exfalso
        simp only [LBState.act] at hb
        rw [if_pos ⟨ht, hl, hpc, hr⟩] at hb
        split at hb
        · cases hb
        · split at hb <;> cases hb
      · exact ⟨s', hs'⟩
  | lead0 =>
    refine ⟨.lead t, ?_⟩
    show ∃ s', s.act c (.lead t) = .ok s' ∧ s'.pc t ≠ s.pc t
    simp only [LBState.act, if_pos ht]
    rcases lead_ok c _ hc s hi t ht with hb | ⟨s', hs', _⟩
    · exfalso
      unfold LBState.leadStep at hb
      rw [hpc] at hb
      simp only at hb
      split at hb
      · split at hb <;> cases hb
      · cases hb
    · refine ⟨s', hs', ?_⟩
      unfold LBState.leadStep at hs'
      rw [hpc] at hs'
      simp only at hs'
      rw [hpc]
      split at hs'
      · split at hs'
        · cases hs'
        · cases hs'; rw [setPc_self]; intro h; cases h
      · cases hs'; rw [setPc_self]; intro h; cases h
  | look ptr acc =>
    refine ⟨.lead t, ?_⟩
    show ∃ s', s.act c (.lead t) = .ok s' ∧ s'.pc t ≠ s.pc t
    simp only [LBState.act, if_pos ht]
    have hok := hi.pcs t ht
    unfold LBPcOk at hok
    rw [hpc] at hok
    obtain ⟨_, _, _, hp, _⟩ := hok
    obtain ⟨a, ha⟩ := hfin ptr hp
    have hok2 := hi.pcs ptr (by omega)
    unfold LBPcOk at hok2
    rw [ha] at hok2
    unfold LBState.leadStep
    rw [hpc]
    simp only
    rw [hok2.1]
    simp only
    rw [unpack_pack32, if_neg (by simp), if_pos rfl]
    refine ⟨_, rfl, ?_⟩
    rw [setPc_self]; intro h; cases h
  | haveAcc acc =>
    refine ⟨.lead t, ?_⟩
    show ∃ s', s.act c (.lead t) = .ok s' ∧ s'.pc t ≠ s.pc t
    simp only [LBState.act, if_pos ht]
    unfold LBState.leadStep
    rw [hpc]
    simp only
    rw [wr, if_pos (by rw [hi.tl]; exact ht)]
    refine ⟨_, rfl, ?_⟩
    rw [setPc_self]; intro h; cases h
  | finish acc =>
    unfold LBState.complete at hq
    rw [hpc] at hq
    simp only [Bool.true_and] at hq
    rw [List.all_eq_false] at hq
    obtain ⟨l, hl, hw⟩ := hq
    simp only [Bool.or_eq_true, decide_eq_true_eq, not_or, Bool.not_eq_true] at hw
    refine ⟨.write t l, ?_⟩
    show ∃ s', s.act c (.write t l) = .ok s'
    simp only [LBState.act, hpc]
    have := hc.out
    rw [if_pos ⟨ht, List.mem_range.1 hl, by omega, hw.2⟩, wr, if_pos (by rw [hi.bl]; omega)]
    exact ⟨_, rfl⟩

/-- Static tile ids, one resident group, two groups. -/
def stuckCfg : LBCfg := ⟨2, 1, 2, true, false, false, 1, [5, 7]⟩

/-- C14 violation for static tile ids (in-place `v5`): if the device runs one group at a time and starts group 1 first, the
kernel is stuck: no action makes progress although nothing is finished. -/
theorem C14_static_ids_stuck_defect :
    ∃ s, (LBState.init stuckCfg [0, 0]).run stuckCfg [.start 1, .load 1 0, .barrier 1, .lead 1] = some s ∧
      ¬ s.terminal stuckCfg ∧ ∀ a, ¬ LBProgress stuckCfg s a := by
  refine ⟨_, rfl, ?_, ?_⟩
  · intro h
    have := h 0 (by decide)
    revert this
    decide
  · intro a
    cases a with
    | start t =>
      rintro ⟨s', h⟩
      match t, h with
      | 0, h =>
        simp only [LBState.act] at h
        rw [if_neg] at h
        · cases h
        · rintro ⟨_, _, _, h4⟩
          revert h4
          decide
      | 1, h => simp [LBState.act, LBState.setPc] at h
      | t + 2, h => simp [LBState.act, stuckCfg] at h
    | load t l =>
      rintro ⟨s', h⟩
      match t, h with
      | 0, h => simp [LBState.act, LBState.setPc, LBState.init] at h
      | 1, h => simp [LBState.act, LBState.setPc] at h
      | t + 2, h => simp [LBState.act, stuckCfg] at h
    | barrier t =>
      rintro ⟨s', h⟩
      match t, h with
      | 0, h => simp [LBState.act, LBState.setPc, LBState.init] at h
      | 1, h => simp [LBState.act, LBState.setPc] at h
      | t + 2, h => simp [LBState.act, stuckCfg] at h
    | lead t =>
      rintro ⟨s', h, hp⟩
      match t, h, hp with
      | 0, h, hp => simp [LBState.act, stuckCfg, LBState.leadStep, LBState.setPc, LBState.init] at h
      | 1, h, hp =>
        apply hp
        have hu : u32sub 1 1 = 0 := by decide
        simp [LBState.act, stuckCfg, LBState.leadStep, LBState.setPc, LBState.init, hu, unpack_pack32] at h
        rw [← h]
        rfl
      | t + 2, h, hp => simp [LBState.act, stuckCfg] at h
    | write t l =>
      rintro ⟨s', h⟩
      match t, h with
      | 0, h => simp [LBState.act, LBState.setPc, LBState.init] at h
      | 1, h => simp [LBState.act, LBState.setPc] at h
      | t + 2, h => simp [LBState.act, LBState.setPc, LBState.init] at h

/-- In-place `v5` on `[5, 7]`. -/
def raceCfg : LBCfg := ⟨2, 1, 2, true, true, false, 2, [5, 7]⟩

/-- C14 violation: `exclusive_sum_in_place_atomic_decoupled_v5` loads `buf[global_id - 1]` from the buffer it overwrites, so
when group 0 stores before group 1 loads, the terminal result is `[0, 0]` instead of `[0, 5]`. -/
theorem C14_in_place_v5_race_defect :
    ∃ s, (LBState.init raceCfg []).run raceCfg
      [.start 0, .load 0 0, .barrier 0, .lead 0, .lead 0, .write 0 0,
       .start 1, .load 1 0, .barrier 1, .lead 1, .lead 1, .lead 1, .write 1 0] = some s ∧
      s.terminal raceCfg ∧ s.buf = [0, 0] ∧ exclSpec raceCfg.inp 1 = 5 := by
  have key : ((LBState.init raceCfg []).run raceCfg
      [.start 0, .load 0 0, .barrier 0, .lead 0, .lead 0, .write 0 0,
       .start 1, .load 1 0, .barrier 1, .lead 1, .lead 1, .lead 1, .write 1 0]).map
        (fun s => (s.complete raceCfg 0, s.complete raceCfg 1, s.buf)) = some (true, true, [0, 0]) := by decide +kernel
  obtain ⟨s, h1, h2⟩ := Option.map_eq_some_iff.1 key
  simp only [Prod.mk.injEq] at h2
  refine ⟨s, h1, ?_, h2.2.2, by decide⟩
  intro t ht
  have : t = 0 ∨ t = 1 := by
    have : t < 2 := ht
    omega
  rcases this with rfl | rfl
  · exact h2.1
  · exact h2.2.1

/-- C14: the 30 bit packed tile loses information: an aggregate of `2^30` in state `A` is read back as state `P`. -/
theorem C14_tile30_defect : unpack30 (pack30 1 (1 <<< 30)) = (2, 0) := by decide

/-- C14: below `2^30` the 30 bit tile round trips. -/
theorem C14_tile30_partial (a b : W32) (ha : a.toNat < 4) (hb : b.toNat < 2 ^ 30) : unpack30 (pack30 a b) = (a, b) := by
  have e1 : (a <<< 30).toNat = a.toNat * 2 ^ 30 := by
    rw [BitVec.toNat_shiftLeft, Nat.shiftLeft_eq]; omega
  have e2 : (pack30 a b).toNat = a.toNat * 2 ^ 30 + b.toNat := by
    unfold pack30; rw [BitVec.toNat_add, e1]; omega
  have e3 : (((1 : W32) <<< 30) - 1).toNat = 2 ^ 30 - 1 := by decide
  refine Prod.ext (BitVec.eq_of_toNat_eq ?_) (BitVec.eq_of_toNat_eq ?_)
  · show (pack30 a b >>> 30).toNat = a.toNat
    rw [BitVec.toNat_ushiftRight, e2, Nat.shiftRight_eq_div_pow]; omega
  · show (pack30 a b &&& (((1 : W32) <<< 30) - 1)).toNat = b.toNat
    rw [BitVec.toNat_and, e2, e3, Nat.and_two_pow_sub_one_eq_mod]; omega

example : LBOk ⟨5, 2, 3, true, false, true, 1, [1, 2, 3, 4, 5]⟩ 6 :=
  ⟨by decide, by decide, by decide, by decide, by decide, by simp, by simp⟩

example : LBOk ⟨5, 2, 3, false, true, true, 1, [1, 2, 3, 4, 5]⟩ 5 :=
  ⟨by decide, by decide, by decide, by decide, by decide, by simp, by simp⟩

/-- A complete run of the dynamic id kernel exists and gives the expected sums. -/
example : ((LBState.init ⟨3, 2, 2, false, true, true, 2, [1, 2, 3]⟩ []).run ⟨3, 2, 2, false, true, true, 2, [1, 2, 3]⟩
    [.start 0, .start 1, .load 1 0, .load 1 1, .barrier 1, .lead 1, .lead 1, .load 0 1, .load 0 0, .barrier 0, .lead 0, .lead 0,
     .lead 1, .lead 1, .write 1 0, .write 0 1, .write 0 0]).map
      (fun s => (s.complete ⟨3, 2, 2, false, true, true, 2, [1, 2, 3]⟩ 0, s.complete ⟨3, 2, 2, false, true, true, 2, [1, 2, 3]⟩ 1,
        s.buf)) = some (true, true, [0, 1, 3]) := by decide +kernel

/-! ### C15 -/

theorem compact_fold (flags : List W32) (hb : Binary flags) (hlen : flags.length < 2 ^ 32) (f : W32)
    (hf : flags[flags.length - 1]? = some f) (h2 : 2 ≤ flags.length) :
    ∀ (order : List Nat) (m : List Nat), (∀ i ∈ order, i < flags.length) →
      m.length = (flaggedIdx flags flags.length).length →
      ∃ out, order.foldlM (compactItem (exclSumFallback flags) (flags.length - 1) f) m = some out ∧ out.length = m.length ∧
        (∀ p : Nat, (∀ i ∈ order, ∀ g, flags[i]? = some g → g ≠ 0 → p ≠ (flaggedIdx flags i).length) → out[p]? = m[p]?) ∧
        (∀ i ∈ order, ∀ g, flags[i]? = some g → g ≠ 0 → out[(flaggedIdx flags i).length]? = some i) := by
  intro order
  induction order with
  | nil => intro m _ _; exact ⟨m, rfl, rfl, fun _ _ => rfl, by simp⟩
  | cons i order ih =>
    intro m hb' hm
    have hi : i < flags.length := hb' i List.mem_cons_self
    have hgi : flags[i]? = some (flags[i]'hi) := List.getElem?_eq_getElem hi
    have hex : ∀ k, k < flags.length → (exclSumFallback flags)[k]? = some (exclSpec flags k) := (C14_fallback flags).2
    -- the item
    have hitem : compactItem (exclSumFallback flags) (flags.length - 1) f m i =
        if flags[i]'hi ≠ 0 then some (m.set (flaggedIdx flags i).length i) else some m := by
      unfold compactItem
      rw [hex i hi]
      simp only [Option.bind_eq_bind, Option.bind_some]
      have hrank := exclSpec_rank flags hb hlen i (by omega)
      have hwr : flags[i]'hi ≠ 0 → wr m (exclSpec flags i).toNat i = some (m.set (flaggedIdx flags i).length i) := by
        intro h0
        rw [hrank, wr, if_pos]
        rw [hm]
        exact (List.getElem?_eq_some_iff.1 (flaggedIdx_rank flags flags.length i _ (Nat.le_refl _) hi hgi h0)).1
      by_cases hlast : i < flags.length - 1
      · rw [if_pos hlast, hex (i + 1) (by omega)]
        simp only [Option.bind_some, Option.pure_def, decide_eq_true_eq]
        have hr2 := exclSpec_rank flags hb hlen (i + 1) (by omega)
        rw [flaggedIdx_succ flags i _ hgi, List.length_append] at hr2
        by_cases h0 : flags[i]'hi = 0
        · have h0' : ¬ (flags[i]'hi ≠ 0) := by simpa using h0
          rw [if_neg h0', List.length_nil] at hr2
          rw [if_neg h0', if_neg (by omega)]
        · rw [if_pos h0, List.length_singleton] at hr2
          rw [if_pos h0, if_pos (by omega)]
          exact hwr h0
      · have hil : i = flags.length - 1 := by omega
        have hfi : flags[i]'hi = f := by
          rw [← hil, hgi] at hf; exact Option.some.inj hf
        rw [if_neg hlast]
        simp only [Option.pure_def, Option.bind_some, decide_eq_true_eq]
        by_cases h0 : flags[i]'hi = 0
        · have h0' : ¬ (flags[i]'hi ≠ 0) := by simpa using h0
          rw [if_neg h0', if_neg (by rw [← hfi]; simpa using h0)]
        · rw [if_pos h0, if_pos (by rw [← hfi]; exact h0)]
          exact hwr h0
    rw [List.foldlM_cons, hitem]
    by_cases h0 : flags[i]'hi = 0
    · have h0' : ¬ (flags[i]'hi ≠ 0) := by simpa using h0
      rw [if_neg h0']
      obtain ⟨out, o1, o2, o3, o4⟩ := ih m (fun k hk => hb' k (List.mem_cons_of_mem _ hk)) hm
      refine ⟨out, o1, o2, ?_, ?_⟩
      · intro p hp; exact o3 p (fun k hk => hp k (List.mem_cons_of_mem _ hk))
      · intro k hk g hg hg0
        rcases List.mem_cons.1 hk with rfl | hk
        · rw [hgi] at hg; exact absurd ((Option.some.inj hg).symm.trans h0) hg0
        · exact o4 k hk g hg hg0
    · rw [if_pos h0]
      obtain ⟨out, o1, o2, o3, o4⟩ := ih (m.set (flaggedIdx flags i).length i) (fun k hk => hb' k (List.mem_cons_of_mem _ hk))
        (by simpa using hm)
      have hlt : (flaggedIdx flags i).length < m.length := by
        rw [hm]
        exact (List.getElem?_eq_some_iff.1 (flaggedIdx_rank flags flags.length i _ (Nat.le_refl _) hi hgi h0)).1
      refine ⟨out, o1, by simpa using o2, ?_, ?_⟩
      · intro p hp
        rw [o3 p (fun k hk => hp k (List.mem_cons_of_mem _ hk)), List.getElem?_set_ne]
        exact (hp i List.mem_cons_self _ hgi h0).symm
      · intro k hk g hg hg0
        rcases List.mem_cons.1 hk with rfl | hk
        · -- position of k: either rewritten by the same index or untouched
          by_cases hin : k ∈ order
          · exact o4 k hin g hg hg0
          · rw [o3, List.getElem?_set_self hlt]
            intro j hj g' hg' hg0' hcon
            have hj' := hb' j (List.mem_cons_of_mem _ hj)
            have e1 := flaggedIdx_rank flags flags.length k _ (Nat.le_refl _) hi hgi h0
            have e2 := flaggedIdx_rank flags flags.length j _ (Nat.le_refl _) hj' hg' hg0'
            rw [← hcon, e1] at e2
            have := Option.some.inj e2
            rw [this] at hin; exact hin hj
        · exact o4 k hk g hg hg0

/-- C15: on a 0/1 flag buffer, for every order of the work items and whatever the uninitialised content of the result buffer,
`stream_compact` is free of out of bounds accesses and returns exactly the increasing list of flagged indices. -/
theorem C15_stream_compact (flags : List W32) (hb : Binary flags) (hlen : flags.length < 2 ^ 32) (garbage : Nat → Nat)
    (order : List Nat) (hord : order.Perm (List.range flags.length)) :
    streamCompact flags garbage order = some (flaggedIdx flags flags.length) := by
  unfold streamCompact
  by_cases h2 : flags.length < 2
  · rw [if_pos h2]
    have := fallback_eq flags [] [] (by simp [flaggedIdx])
    simp only [List.length_nil, List.nil_append] at this
    rw [this]
  · rw [if_neg h2]
    have hex := (C14_fallback flags).2 (flags.length - 1) (by omega)
    have hgf : flags[flags.length - 1]? = some (flags[flags.length - 1]'(by omega)) := List.getElem?_eq_getElem (by omega)
    dsimp only
    rw [hex, hgf]
    simp only [Option.bind_eq_bind, Option.bind_some]
    generalize hfe : flags[flags.length - 1]'(by omega) = f at hgf
    have hr := exclSpec_rank flags hb hlen flags.length (Nat.le_refl _)
    have hsucc := exclSpec_succ flags (flags.length - 1) f hgf
    rw [show flags.length - 1 + 1 = flags.length by omega] at hsucc
    have hnew : (if f ≠ 0 then exclSpec flags (flags.length - 1) + 1 else exclSpec flags (flags.length - 1)) =
        exclSpec flags flags.length := by
      rw [hsucc]
      have hfm : f ∈ flags := List.mem_of_getElem? hgf
      rcases hb f hfm with h | h
      · subst h; simp
      · subst h; simp
    rw [hnew, hr]
    have hmem : ∀ i ∈ order, i < flags.length := by
      intro i hi
      rw [hord.mem_iff, List.mem_range] at hi; exact hi
    obtain ⟨out, o1, o2, _, o4⟩ := compact_fold flags hb hlen f hgf (by omega) order
      ((List.range (flaggedIdx flags flags.length).length).map garbage) hmem (by simp)
    split
    · rw [o1]
      congr 1
      apply List.ext_getElem?
      intro p
      by_cases hp : p < (flaggedIdx flags flags.length).length
      · -- the p-th flagged index
        have hmp := List.getElem_mem hp
        have hfl : (flaggedIdx flags flags.length)[p] ∈ flaggedIdx flags flags.length := hmp
        generalize hie : (flaggedIdx flags flags.length)[p] = i at hfl
        have hfl' := hfl
        unfold flaggedIdx at hfl'
        rw [List.mem_filter, List.mem_range, decide_eq_true_eq] at hfl'
        obtain ⟨hin, g, hg, hg0⟩ := hfl'
        have e2 := flaggedIdx_rank flags flags.length i g (Nat.le_refl _) hin hg hg0
        have hnd : (flaggedIdx flags flags.length).Nodup := List.nodup_range.filter _
        obtain ⟨hk, e3⟩ := List.getElem?_eq_some_iff.1 e2
        have hpe : (flaggedIdx flags i).length = p := (List.Nodup.getElem_inj_iff hnd).1 (e3.trans hie.symm)
        have := o4 i (by rw [hord.mem_iff, List.mem_range]; exact hin) g hg hg0
        rw [hpe] at this e2
        rw [this, e2]
      · rw [List.getElem?_eq_none (by rw [o2]; simp; omega), List.getElem?_eq_none (by omega)]
    · have : (flaggedIdx flags flags.length).length = 0 := by omega
      rw [List.length_eq_zero_iff] at this
      rw [this]; rfl

/-- C15: the specification list is increasing and contains exactly the flagged indices. -/
theorem C15_spec (flags : List W32) : (flaggedIdx flags flags.length).Pairwise (· < ·) ∧
    ∀ i, i ∈ flaggedIdx flags flags.length ↔ ∃ f, flags[i]? = some f ∧ f ≠ 0 := by
  refine ⟨List.Pairwise.filter _ List.pairwise_lt_range, fun i => ?_⟩
  unfold flaggedIdx
  rw [List.mem_filter, List.mem_range, decide_eq_true_eq]
  constructor
  · exact fun h => h.2
  · rintro ⟨f, h1, h2⟩
    exact ⟨(List.getElem?_eq_some_iff.1 h1).1, f, h1, h2⟩

/-- C15 negative: a flag that is not 0 or 1 leaves uninitialised entries in the result. -/
theorem C15_non_binary_flags (garbage : Nat → Nat) : streamCompact [2, 0] garbage [0, 1] = some [0, garbage 1] := rfl

example : Binary [1, 0, 1, 1] ∧ streamCompact [1, 0, 1, 1] (fun _ => 99) [3, 0, 2, 1] = some [0, 2, 3] := by
  constructor
  · intro f hf; simp at hf; tauto
  · decide

end Shamrock
