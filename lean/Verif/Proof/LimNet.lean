import Verif.Model.LimNet
import Verif.Proof.Net
import Mathlib.Data.Nat.Find
/-! Exchanges with a bounded number of requests in flight never block and deliver (used by C24, C25, C46). -/
namespace Shamrock

/-- Send and receive of a message are posted in the same iteration by its sender and receiver, and the tags separate the messages. -/
structure XMatched {P : Type} (W n : Nat) (prog : Nat → Nat → XIter P) : Prop where
  send_ok : ∀ r < W, ∀ i < n, ∀ m, (prog r i).send = some m → m.dst < W ∧ (prog m.dst i).recv = some ⟨r, m.tag⟩
  recv_ok : ∀ r < W, ∀ i < n, ∀ q, (prog r i).recv = some q → q.src < W ∧ ∃ p, (prog q.src i).send = some ⟨r, q.tag, p⟩
  uniq : ∀ r < W, ∀ i < n, ∀ j < n, ∀ m m', (prog r i).send = some m → (prog r j).send = some m' → m.dst = m'.dst → m.tag = m'.tag → i = j

structure XInv {P : Type} (W n : Nat) (prog : Nat → Nat → XIter P) (s : XState P) : Prop where
  le : ∀ r < W, s.pos r ≤ n
  got : ∀ r < W, ∀ j < n, ∀ q, (prog r j).recv = some q → (s.taken q.src j = (s.got r j).isSome)
  val : ∀ r < W, ∀ j < n, ∀ q p, (prog r j).recv = some q → s.got r j = some p → (prog q.src j).send = some ⟨r, q.tag, p⟩

theorem XInv.init {P : Type} (W n : Nat) (prog : Nat → Nat → XIter P) : XInv W n prog (XState.init P) :=
  ⟨fun _ _ => by simp [XState.init], fun _ _ _ _ _ _ => rfl, fun _ _ _ _ _ _ _ h => by simp [XState.init] at h⟩

theorem XInv.step {P : Type} {W n lim : Nat} {buf : Bool} {prog : Nat → Nat → XIter P} (hM : XMatched W n prog) {s s' : XState P}
    (h : XInv W n prog s) (hs : XStep W n lim buf prog s s') : XInv W n prog s' := by
  cases hs with
  | iter r hr hp hl =>
    refine ⟨fun x hx => ?_, h.got, h.val⟩
    by_cases hxr : x = r
    · subst hxr; simp only [upd, if_true]; omega
    · simp only [upd, hxr, if_false]; exact h.le x hx
  | sendDone r i m hr hi hm hd hb => exact ⟨h.le, h.got, h.val⟩
  | recv r i r' j m q hr hr' hi hj hm hq ht hg hd hs htag hno =>
    have hjn : j < n := lt_of_lt_of_le hj (h.le r' hr')
    have hin : i < n := lt_of_lt_of_le hi (h.le r hr)
    obtain ⟨hq1, p, hq2⟩ := hM.recv_ok r' hr' j hjn q hq
    rw [hs] at hq2
    have hij : i = j := hM.uniq r hr i hin j hjn m _ hm hq2 hd htag
    subst hij
    refine ⟨h.le, fun x hx k hk y hy => ?_, fun x hx k hk y z hy hz => ?_⟩
    · simp only [upd2]
      by_cases hxk : x = r' ∧ k = i
      · obtain ⟨rfl, rfl⟩ := hxk
        rw [hq] at hy
        cases hy
        rw [if_pos ⟨hs, rfl⟩, if_pos ⟨rfl, rfl⟩]; rfl
      · rw [if_neg hxk, if_neg]
        · exact h.got x hx k hk y hy
        · rintro ⟨e1, e2⟩
          subst e2
          obtain ⟨-, p', hp'⟩ := hM.recv_ok x hx k hk y hy
          rw [e1, hm] at hp'
          cases hp'
          exact hxk ⟨hd, rfl⟩
    · simp only [upd2] at hz
      by_cases hxk : x = r' ∧ k = i
      · obtain ⟨rfl, rfl⟩ := hxk
        rw [hq] at hy
        cases hy
        rw [if_pos ⟨rfl, rfl⟩] at hz
        cases hz
        rw [hs, hm]
        cases m
        simp only at hd htag
        rw [hd, htag]
      · rw [if_neg hxk] at hz
        exact h.val x hx k hk y z hy hz

theorem XInv.run {P : Type} {W n lim : Nat} {buf : Bool} {prog : Nat → Nat → XIter P} (hM : XMatched W n prog) {k : Nat} {s : XState P}
    (h : XRun W n lim buf prog k s) : XInv W n prog s := by
  induction h with
  | init => exact XInv.init W n prog
  | step _ hs ih => exact ih.step hM hs

/-- Is something of iteration `i` on rank `r` incomplete? -/
def XOpen {P : Type} (prog : Nat → Nat → XIter P) (s : XState P) (r i : Nat) : Prop :=
  ((prog r i).send.isSome ∧ s.sdone r i = false) ∨ ((prog r i).recv.isSome ∧ s.got r i = none)

theorem inflight_zero {P : Type} (prog : Nat → Nat → XIter P) (s : XState P) (r : Nat) (h : ∀ i < s.pos r, ¬ XOpen prog s r i) :
    s.inflight prog r = 0 := by
  unfold XState.inflight
  have h1 : ((List.range (s.pos r)).filter fun i => (prog r i).send.isSome && !s.sdone r i) = [] := by
    rw [List.filter_eq_nil_iff]
    intro i hi hc
    simp only [Bool.and_eq_true, Bool.not_eq_true'] at hc
    exact h i (List.mem_range.1 hi) (Or.inl hc)
  have h2 : ((List.range (s.pos r)).filter fun i => (prog r i).recv.isSome && (s.got r i).isNone) = [] := by
    rw [List.filter_eq_nil_iff]
    intro i hi hc
    simp only [Bool.and_eq_true, Option.isNone_iff_eq_none] at hc
    exact h i (List.mem_range.1 hi) (Or.inr hc)
  rw [h1, h2]; rfl

/-- **No deadlock.** With any positive limit, in every reachable state that is not final some step is possible, even if MPI buffers nothing. -/
theorem xnet_progress {P : Type} {W n lim : Nat} {buf : Bool} {prog : Nat → Nat → XIter P} (hM : XMatched W n prog) (hlim : 0 < lim) {k : Nat}
    {s : XState P} (h : XRun W n lim buf prog k s) : s.Final W n prog ∨ ∃ s', XStep W n lim buf prog s s' := by
  have hI := XInv.run hM h
  classical
  by_cases hop : ∃ i, i < n ∧ ∃ r < W, XOpen prog s r i
  · right
    obtain ⟨hi, r, hr, hO⟩ := Nat.find_spec hop
    have hmin : ∀ j < Nat.find hop, ∀ r < W, ¬ XOpen prog s r j := fun j hj r hr hc =>
      Nat.find_min hop hj ⟨lt_trans hj hi, r, hr, hc⟩
    set i := Nat.find hop with hidef
    -- the pair of the open request
    obtain ⟨a, b, tag, p, ha, hb, hsa, hrb, hrab⟩ : ∃ a b tag p, a < W ∧ b < W ∧ (prog a i).send = some ⟨b, tag, p⟩ ∧ (prog b i).recv = some ⟨a, tag⟩ ∧
        (s.sdone a i = false ∨ s.got b i = none) := by
      rcases hO with ⟨h1, h2⟩ | ⟨h1, h2⟩
      · obtain ⟨m, hm⟩ := Option.isSome_iff_exists.1 h1
        obtain ⟨hd, hq⟩ := hM.send_ok r hr i hi m hm
        exact ⟨r, m.dst, m.tag, m.pay, hr, hd, hm, hq, Or.inl h2⟩
      · obtain ⟨q, hq⟩ := Option.isSome_iff_exists.1 h1
        obtain ⟨hd, p, hm⟩ := hM.recv_ok r hr i hi q hq
        exact ⟨q.src, r, q.tag, p, hd, hr, hm, hq, Or.inr h2⟩
    have hadv : ∀ x < W, s.pos x ≤ i → ∃ s', XStep W n lim buf prog s s' := fun x hx hp =>
      ⟨_, XStep.iter s x hx (lt_of_le_of_lt hp hi) (by
        rw [inflight_zero prog s x (fun j hj => hmin j (lt_of_lt_of_le hj hp) x hx)]; exact hlim)⟩
    by_cases hpa : s.pos a ≤ i
    · exact hadv a ha hpa
    by_cases hpb : s.pos b ≤ i
    · exact hadv b hb hpb
    have hg := hI.got b hb i hi _ hrb
    cases htk : s.taken a i with
    | false =>
      have hnone : s.got b i = none := by
        simp only at hg
        rw [htk] at hg
        cases hgb : s.got b i with
        | none => rfl
        | some v => rw [hgb] at hg; simp at hg
      refine ⟨_, XStep.recv s a i b i ⟨b, tag, p⟩ ⟨a, tag⟩ ha hb (by omega) (by omega) hsa hrb htk hnone rfl rfl rfl ?_⟩
      intro i' hi' m' hm' hd ht
      exact absurd (hM.uniq a ha i' (lt_trans hi' hi) i hi m' _ hm' hsa hd ht) (by omega)
    | true =>
      have hsome : (s.got b i).isSome = true := by simp only at hg; rw [← hg, htk]
      rcases hrab with h1 | h1
      · exact ⟨_, XStep.sendDone s a i _ ha (by omega) hsa h1 (Or.inl htk)⟩
      · rw [h1] at hsome; simp at hsome
  · have hclosed : ∀ r < W, ∀ i < n, ¬ XOpen prog s r i := fun r hr i hi hc => hop ⟨i, hi, r, hr, hc⟩
    by_cases hpos : ∃ r < W, s.pos r ≠ n
    · right
      obtain ⟨r, hr, hne⟩ := hpos
      have hle := hI.le r hr
      exact ⟨_, XStep.iter s r hr (by omega) (by
        rw [inflight_zero prog s r (fun j hj => hclosed r hr j (by omega))]; exact hlim)⟩
    · left
      intro r hr
      refine ⟨by by_contra hne; exact hpos ⟨r, hr, hne⟩, fun i hi => ⟨fun h1 => ?_, fun h1 => ?_⟩⟩
      · cases hd : s.sdone r i with
        | true => rfl
        | false => exact absurd (Or.inl ⟨h1, hd⟩) (hclosed r hr i hi)
      · cases hd : s.got r i with
        | some v => rfl
        | none => exact absurd (Or.inr ⟨h1, hd⟩) (hclosed r hr i hi)

/-- Remaining work. -/
def xTodo {P : Type} (W n : Nat) (s : XState P) : Nat :=
  ((List.range W).map fun r => (n - s.pos r) + ((List.range n).filter fun i => !s.sdone r i).length +
    ((List.range n).filter fun i => (s.got r i).isNone).length).sum

theorem xTodo_step {P : Type} {W n lim : Nat} {buf : Bool} {prog : Nat → Nat → XIter P} {s s' : XState P} (hle : ∀ r < W, s.pos r ≤ n)
    (hs : XStep W n lim buf prog s s') : xTodo W n s' + 1 = xTodo W n s := by
  cases hs with
  | iter r hr hp hl =>
    refine sum_map_dec W r hr ?_ (fun x hx => ?_)
    · simp only [upd, if_true]; omega
    · simp only [upd, hx, if_false]
  | sendDone r i m hr hi hm hd hb =>
    refine sum_map_dec W r hr ?_ (fun x hx => ?_)
    · have := filter_upd n i (lt_of_lt_of_le hi (hle r hr)) (fun k => !s.sdone r k) (by simp [hd])
      have e : (List.range n).filter (fun x => if x = i then false else !s.sdone r x) =
          (List.range n).filter (fun x => !(upd s.sdone r (upd (s.sdone r) i true) r x)) := by
        apply List.filter_congr
        intro x _
        simp only [upd, if_true]
        split <;> rfl
      rw [e] at this
      simp only at this ⊢
      omega
    · simp only [upd, hx, if_false]
  | recv r i r' j m q hr hr' hi hj hm hq ht hg hd hs htag hno =>
    refine sum_map_dec W r' hr' ?_ (fun x hx => ?_)
    · have := filter_upd n j (lt_of_lt_of_le hj (hle r' hr')) (fun k => (s.got r' k).isNone) (by rw [hg]; rfl)
      have e : (List.range n).filter (fun x => if x = j then false else (s.got r' x).isNone) =
          (List.range n).filter (fun x => (upd s.got r' (upd (s.got r') j (some m.pay)) r' x).isNone) := by
        apply List.filter_congr
        intro x _
        simp only [upd, if_true]
        split <;> rfl
      rw [e] at this
      simp only at this ⊢
      omega
    · simp only [upd, hx, if_false]

/-- **Termination.** No execution makes more than `3 * n` steps per rank. -/
theorem xnet_bound {P : Type} {W n lim : Nat} {buf : Bool} {prog : Nat → Nat → XIter P} (hM : XMatched W n prog) {k : Nat} {s : XState P}
    (h : XRun W n lim buf prog k s) : k ≤ W * (3 * n) := by
  have key : k + xTodo W n s = W * (3 * n) := by
    induction h with
    | init =>
      unfold xTodo XState.init
      simp only [Nat.sub_zero, Bool.not_false, Option.isNone_none, List.filter_true, List.length_range, Nat.zero_add]
      rw [List.map_const', List.sum_replicate_nat, List.length_range]
      congr 1; omega
    | step h hs ih =>
      have := xTodo_step (XInv.run hM h).le hs
      omega
  omega

/-- **Delivery.** A completed receive holds the payload of the send posted for it in the same iteration. -/
theorem xnet_deliver {P : Type} {W n lim : Nat} {buf : Bool} {prog : Nat → Nat → XIter P} (hM : XMatched W n prog) {k : Nat} {s : XState P}
    (h : XRun W n lim buf prog k s) (hF : s.Final W n prog) (a b i tag : Nat) (p : P) (ha : a < W) (hb : b < W) (hi : i < n)
    (hs : (prog a i).send = some ⟨b, tag, p⟩) : s.got b i = some p := by
  have hI := XInv.run hM h
  obtain ⟨hd, hq⟩ := hM.send_ok a ha i hi _ hs
  have hsome := ((hF b hb).2 i hi).2 (by simp only at hq; rw [hq]; rfl)
  obtain ⟨v, hv⟩ := Option.isSome_iff_exists.1 hsome
  have := hI.val b hb i hi _ v hq hv
  rw [hs] at this
  cases this
  exact hv

end Shamrock
