import Verif.Proof.Scan6
/-! **C14.** The scan with the parallel look-back (`v6`). -/
namespace Shamrock

/-- The groups launched cover the array. -/
theorem l6Groups_cover (len gs : Nat) (h : 0 < gs) : len ≤ l6Groups len gs * gs := by
  unfold l6Groups
  have h1 := Nat.div_add_mod (len + gs - 1) gs
  have h2 := Nat.mod_lt (len + gs - 1) h
  have h3 : (len + gs - 1) / gs * gs ≤ ((len + gs - 1) / gs + (len + gs - 1) / gs % 4) * gs := Nat.mul_le_mul_right _ (by omega)
  rw [Nat.mul_comm gs] at h1
  simp only
  omega

/-- **C14, parallel look-back.** Under every schedule of the memory accesses of the lanes, `exclusive_sum_atomic_decoupled_v6` never accesses out of bounds, and every value it
stored, so every value of the output when the kernel is over, is the sum modulo `2^32` of the inputs before it. -/
theorem C14_lookback6_exact (c : L6Cfg) (out0 : List W32) (hc : L6Ok c out0.length) (schedule : List L6Act) :
    ∃ s, (L6State.init c out0).run c schedule = some s ∧ s.buf.length = out0.length ∧
      (∀ i : Nat, s.written i = true → s.buf[i]? = some (exclSpec c.inp i)) ∧
      (s.terminal c → ∀ i : Nat, i < c.len → s.buf[i]? = some (exclSpec c.inp i)) := by
  obtain ⟨s, h1, h2⟩ := run6_inv c _ hc schedule _ (L6Inv_init c out0 _ rfl)
  refine ⟨s, h1, h2.bl, fun i hw => (h2.wri i hw).2, fun ht i hi => ?_⟩
  have hgs := hc.gs
  have hcov := hc.cover
  have hlt : i / c.gs < c.G := (Nat.div_lt_iff_lt_mul hgs).2 (by omega)
  have hcomp := ht _ hlt
  unfold L6State.complete at hcomp
  rw [Bool.and_eq_true, List.all_eq_true] at hcomp
  have := hcomp.2 (i % c.gs) (List.mem_range.2 (Nat.mod_lt _ hgs))
  have he : i / c.gs * c.gs + i % c.gs = i := by rw [Nat.mul_comm]; exact Nat.div_add_mod i c.gs
  rw [he, Bool.or_eq_true, decide_eq_true_eq] at this
  rcases this with h | h
  · omega
  · exact (h2.wri i h).2

/-- An action that is possible and is not a read of a tile that is still invalid (a spin leaves the register of the lane unset). -/
def L6Progress (c : L6Cfg) (s : L6State) (a : L6Act) : Prop :=
  match a with
  | .read t l => ∃ s', s.act c a = .ok s' ∧ s'.reads t l ≠ none
  | _ => ∃ s', s.act c a = .ok s'

/-- **C14, parallel look-back, progress.** If the device can hold all the groups at once, in every reachable state that is not terminal some possible action is not a spin. -/
theorem C14_lookback6_progress_partial (c : L6Cfg) (out0 : List W32) (hc : L6Ok c out0.length) (hK : c.G ≤ c.K) (schedule : List L6Act) (s : L6State)
    (hs : (L6State.init c out0).run c schedule = some s) (hnt : ¬ s.terminal c) : ∃ a, L6Progress c s a := by
  obtain ⟨s', h1, hi⟩ := run6_inv c _ hc schedule _ (L6Inv_init c out0 _ rfl)
  rw [hs] at h1
  cases h1
  have hex : ∃ t, t < c.G ∧ s.complete c t = false := by
    by_contra hcon
    apply hnt
    intro t ht
    cases hq : s.complete c t with
    | true => rfl
    | false => exact absurd ⟨t, ht, hq⟩ hcon
  obtain ⟨t, ⟨ht, hq⟩, hmin⟩ : ∃ t, (t < c.G ∧ s.complete c t = false) ∧ ∀ k < t, s.complete c k = true := by
    have := Nat.find_spec hex
    refine ⟨Nat.find hex, this, fun k hk => ?_⟩
    have hnk := Nat.find_min hex hk
    cases hqk : s.complete c k with
    | true => rfl
    | false => exact absurd ⟨by omega, hqk⟩ hnk
  have hok := hi.pcs t ht
  unfold L6PcOk at hok
  cases hpc : s.pc t with
  | idle =>
    refine ⟨.start t, ?_⟩
    have hres : s.resident c < c.G := by
      unfold L6State.resident
      have hsub : ((List.range c.G).filter fun k => decide (s.pc k ≠ .idle) && !s.complete c k).length < (List.range c.G).length := by
        rw [List.length_filter_lt_length_iff_exists]
        exact ⟨t, List.mem_range.2 ht, by simp [hpc]⟩
      rwa [List.length_range] at hsub
    show ∃ s', s.act c (.start t) = .ok s'
    simp only [L6State.act]
    rw [if_pos ⟨ht, hpc, by omega⟩]
    exact ⟨_, rfl⟩
  | loading =>
    by_cases hall : ∀ l < c.gs, s.regs t l ≠ none
    · refine ⟨.barrier t, ?_⟩
      show ∃ s', s.act c (.barrier t) = .ok s'
      simp only [L6State.act]
      rw [if_pos ⟨ht, hpc, hall⟩]
      exact ⟨_, rfl⟩
    · obtain ⟨l, hl, hr⟩ : ∃ l, l < c.gs ∧ s.regs t l = none := by
        by_contra hcon
        exact hall fun l hl hn => hcon ⟨l, hl, hn⟩
      refine ⟨.load t l, ?_⟩
      show ∃ s', s.act c (.load t l) = .ok s'
      rcases act6_ok c _ hc s hi (.load t l) with hb | ⟨s', hs', _⟩
      · exfalso
        simp only [L6State.act] at hb
        rw [if_pos ⟨ht, hl, hpc, hr⟩] at hb
        split at hb
        · split at hb <;> cases hb
        · cases hb
      · exact ⟨s', hs'⟩
  | look ptr acc posted =>
    rw [hpc] at hok
    obtain ⟨h1, h2, h3, h4, h5, h6⟩ := hok
    cases posted with
    | false =>
      refine ⟨.post t, ?_⟩
      show ∃ s', s.act c (.post t) = .ok s'
      simp only [L6State.act, if_pos ht, hpc]
      rw [wr, if_pos (by rw [hi.tl]; exact ht)]
      exact ⟨_, rfl⟩
    | true =>
      by_cases hall : ∀ l < c.gs, s.reads t l ≠ none
      · refine ⟨.reduce t, ?_⟩
        show ∃ s', s.act c (.reduce t) = .ok s'
        simp only [L6State.act, hpc]
        rw [if_pos ⟨ht, hall⟩]
        exact ⟨_, rfl⟩
      · obtain ⟨l, hl, hr⟩ : ∃ l, l < c.gs ∧ s.reads t l = none := by
          by_contra hcon
          exact hall fun l hl hn => hcon ⟨l, hl, hn⟩
        refine ⟨.read t l, ?_⟩
        show ∃ s', s.act c (.read t l) = .ok s' ∧ s'.reads t l ≠ none
        simp only [L6State.act, hpc]
        rw [if_pos ⟨ht, hl, hr, fun _ => trivial⟩]
        by_cases hlt : l < c.tc ∧ l ≤ ptr
        · rw [if_pos hlt]
          have hcm := hmin (ptr - l) (by omega)
          unfold L6State.complete at hcm
          rw [Bool.and_eq_true] at hcm
          have hq2 := hi.pcs (ptr - l) (by omega)
          unfold L6PcOk at hq2
          have htile : s.tiles[ptr - l]? = some (pack32 2 (pre c.base.w ((ptr - l + 1) * c.gs))) := by
            cases hp : s.pc (ptr - l) with
            | out a p =>
              rw [hp] at hcm hq2
              have hp1 : p = true := hcm.1
              subst hp1
              exact hq2.2.2
            | _ => rw [hp] at hcm; simp at hcm
          rw [htile]
          simp only
          rw [unpack_pack32, if_neg (by simp)]
          exact ⟨_, rfl, by simp⟩
        · rw [if_neg hlt]
          exact ⟨_, rfl, by simp⟩
  | out acc posted =>
    cases posted with
    | false =>
      refine ⟨.post t, ?_⟩
      show ∃ s', s.act c (.post t) = .ok s'
      simp only [L6State.act, if_pos ht, hpc]
      rw [wr, if_pos (by rw [hi.tl]; exact ht)]
      exact ⟨_, rfl⟩
    | true =>
      unfold L6State.complete at hq
      rw [hpc] at hq
      simp only [Bool.true_and] at hq
      rw [List.all_eq_false] at hq
      obtain ⟨l, hl, hw⟩ := hq
      simp only [Bool.or_eq_true, decide_eq_true_eq, not_or, Bool.not_eq_true] at hw
      refine ⟨.write t l, ?_⟩
      show ∃ s', s.act c (.write t l) = .ok s'
      simp only [L6State.act, hpc]
      have := hc.out
      rw [if_pos ⟨ht, List.mem_range.1 hl, by omega, hw.2, fun _ => trivial⟩, wr, if_pos (by rw [hi.bl]; omega)]
      exact ⟨_, rfl⟩

/-- Two groups, one of them resident at a time. -/
def stuck6Cfg : L6Cfg := ⟨2, 1, 1, 2, 1, [5, 7]⟩

/-- **C14, defect of the parallel look-back.** The tile ids are the hardware group ids: if the device runs one group at a time and starts group 1 first, no action makes progress
although nothing is finished. -/
theorem C14_lookback6_stuck_defect :
    ∃ s, (L6State.init stuck6Cfg [0, 0]).run stuck6Cfg [.start 1, .load 1 0, .barrier 1, .post 1] = some s ∧
      ¬ s.terminal stuck6Cfg ∧ ∀ a, ¬ L6Progress stuck6Cfg s a := by
  obtain ⟨s, hs⟩ : ∃ s, (L6State.init stuck6Cfg [0, 0]).run stuck6Cfg [.start 1, .load 1 0, .barrier 1, .post 1] = some s := ⟨_, rfl⟩
  have p0 : s.pc 0 = .idle := by cases hs; rfl
  have p1 : s.pc 1 = .look 0 0 true := by cases hs; rfl
  have r1 : s.reads 1 0 = none := by cases hs; rfl
  have t0 : s.tiles[0]? = some (pack32 0 0) := by cases hs; rfl
  have c0 : s.complete stuck6Cfg 0 = false := by cases hs; rfl
  have c1 : s.resident stuck6Cfg = 1 := by cases hs; decide
  refine ⟨s, hs, fun h => ?_, ?_⟩
  · have := h 0 (by decide)
    rw [c0] at this
    cases this
  have hG : stuck6Cfg.G = 2 := rfl
  have h01 : ∀ t, t < stuck6Cfg.G → t = 0 ∨ t = 1 := by intro t ht; rw [hG] at ht; omega
  intro a
  cases a with
  | start t =>
    rintro ⟨s', h⟩
    simp only [L6State.act] at h
    rw [if_neg (by rw [c1]; rintro ⟨-, -, h3⟩; exact absurd h3 (by decide))] at h
    cases h
  | load t l =>
    rintro ⟨s', h⟩
    simp only [L6State.act] at h
    rw [if_neg] at h
    · cases h
    · rintro ⟨h1, -, h3, -⟩
      rcases h01 t h1 with rfl | rfl
      · rw [p0] at h3; cases h3
      · rw [p1] at h3; cases h3
  | barrier t =>
    rintro ⟨s', h⟩
    simp only [L6State.act] at h
    rw [if_neg] at h
    · cases h
    · rintro ⟨h1, h3, -⟩
      rcases h01 t h1 with rfl | rfl
      · rw [p0] at h3; cases h3
      · rw [p1] at h3; cases h3
  | post t =>
    rintro ⟨s', h⟩
    simp only [L6State.act] at h
    split at h
    · rename_i h1
      rcases h01 t h1 with rfl | rfl
      · rw [p0] at h; cases h
      · rw [p1] at h; cases h
    · cases h
  | read t l =>
    rintro ⟨s', h, hr⟩
    by_cases h1 : t < stuck6Cfg.G
    · rcases h01 t h1 with rfl | rfl
      · simp only [L6State.act, p0] at h; cases h
      · simp only [L6State.act, p1] at h
        split at h
        · rename_i h2
          have hl : l = 0 := by have := h2.2.1; have e : stuck6Cfg.gs = 1 := rfl; omega
          subst hl
          rw [if_pos (by decide)] at h
          simp only [t0, unpack_pack32] at h
          rw [if_pos trivial] at h
          rw [← L6Res.ok.inj h] at hr
          exact hr r1
        · cases h
    · simp only [L6State.act] at h
      split at h
      · rw [if_neg (fun hh => h1 hh.1)] at h; cases h
      · cases h
  | reduce t =>
    rintro ⟨s', h⟩
    simp only [L6State.act] at h
    split at h
    · rw [if_neg] at h
      · cases h
      · rintro ⟨h1, h2⟩
        rcases h01 t h1 with rfl | rfl
        · rename_i hp; rw [p0] at hp; cases hp
        · exact h2 0 (by decide) r1
    · cases h
  | write t l =>
    rintro ⟨s', h⟩
    simp only [L6State.act] at h
    split at h
    · rename_i hp
      rw [if_neg] at h
      · cases h
      · rintro ⟨h1, -⟩
        rcases h01 t h1 with rfl | rfl
        · rw [p0] at hp; cases hp
        · rw [p1] at hp; cases hp
    · cases h

/-- Five inputs in groups of two that look back two tiles at a time. -/
example : L6Ok ⟨5, 2, 2, l6Groups 5 2, 6, [1, 2, 3, 4, 5]⟩ 12 ∧ l6Groups 5 2 = 6 :=
  ⟨⟨by decide, by decide, by decide, by decide, by decide, by decide, by decide⟩, by decide⟩

end Shamrock
