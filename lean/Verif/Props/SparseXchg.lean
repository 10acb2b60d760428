import Verif.Proof.SparseXchg
/-! # C46: batched sparse communication equals the unbatched one -/
namespace Shamrock

/-- What the callers pass: existing receivers, payloads and numbers of messages below 2^31. -/
structure SxOk {B : Type} (sends : List (List (SxMsg B))) : Prop where
  ranks : sends.length < 2 ^ 31
  count : sends.flatten.length < 2 ^ 31
  recv : ∀ l ∈ sends, ∀ m ∈ l, m.rcv < sends.length
  size : ∀ l ∈ sends, ∀ m ∈ l, m.pay.length < 2 ^ 31

/-- Specification: rank `r` gets the messages addressed to it, by sender rank, in the order in which the sender passed them. -/
def sxExpected {B : Type} (sends : List (List (SxMsg B))) (r : Nat) : List (Nat × List B) :=
  (sends.zipIdx.map fun x => (x.1.filter fun m => decide (m.rcv = r)).map fun m => (x.2, m.pay)).flatten

/-- **C46, one exchange.** `base_sparse_comm` with an empty receive list: every rank can post all its requests; with any limit on the requests in
flight (even 0) no execution blocks, even if MPI buffers nothing, and every execution ends; every complete execution gives each rank exactly the
payloads addressed to it. -/
theorem C46_exchange {B : Type} (dflt : B) (lim : Nat) (buf : Bool) (sends : List (List (SxMsg B))) (h : SxOk sends) :
    ∃ (slots : Nat → List (Nat × List B)) (posts : Nat → List (XIter (List B))),
      (∀ r < sends.length, sxPosts dflt sends [] r = .ok (slots r, posts r)) ∧
      (∀ k s, XRun sends.length sends.flatten.length (lim + 1) buf (fun r i => (posts r).getD i ⟨none, none⟩) k s →
        (s.Final sends.length sends.flatten.length (fun r i => (posts r).getD i ⟨none, none⟩) ∨
          ∃ s', XStep sends.length sends.flatten.length (lim + 1) buf (fun r i => (posts r).getD i ⟨none, none⟩) s s') ∧
        k ≤ sends.length * (3 * sends.flatten.length)) ∧
      (∃ k s, XRun sends.length sends.flatten.length (lim + 1) buf (fun r i => (posts r).getD i ⟨none, none⟩) k s ∧
        s.Final sends.length sends.flatten.length (fun r i => (posts r).getD i ⟨none, none⟩)) ∧
      ∀ k s, XRun sends.length sends.flatten.length (lim + 1) buf (fun r i => (posts r).getD i ⟨none, none⟩) k s →
        s.Final sends.length sends.flatten.length (fun r i => (posts r).getD i ⟨none, none⟩) →
        ∀ r < sends.length, sxStore (s.got r) (posts r) 0 0 (slots r) = .ok (sxExpected sends r) := by
  have hmem : ∀ g ∈ gAll 0 sends, g.snd < sends.length ∧ g.rcv < sends.length ∧
      ∀ ms, sends[g.snd]? = some ms → ms[g.tag]? = some ⟨g.rcv, g.pay⟩ := by
    intro g hg
    obtain ⟨j, ms, a, b, c⟩ := gAll_mem 0 sends g hg
    rw [Nat.zero_add] at a
    refine ⟨by rw [a]; exact (List.getElem?_eq_some_iff.1 b).1, h.recv ms (List.mem_of_getElem? b) _ (List.mem_of_getElem? c), fun ms' hms => ?_⟩
    rw [a, b] at hms; cases hms; exact c
  have hw32 : ∀ g ∈ gAll 0 sends, g.snd < 2 ^ 32 ∧ g.rcv < 2 ^ 32 := fun g hg => by
    have := hmem g hg; have := h.ranks; omega
  have htags : TagsFrom (gAll 0 sends) (List.replicate sends.length 0) :=
    tagsFrom_all 0 sends _ (fun i _ hi => by rw [List.getElem?_replicate, if_pos (by omega)])
  have hM : XMatched sends.length sends.flatten.length (gProg (gAll 0 sends)) := by
    rw [← gAll_length 0]
    exact gProg_matched _ _ (fun m hm => ⟨(hmem m hm).1, (hmem m hm).2.1⟩) (tagsFrom_pairwise _ _ htags).2
  have hcs : ∀ (j : Nat) (g : GMsg (List B)), (gAll 0 sends)[j]? = some g → ((gAll 0 sends).map fun g => g.pay.length)[0 + j]? = some g.pay.length := by
    intro j g hg
    rw [Nat.zero_add, List.getElem?_map, hg]; rfl
  refine ⟨fun r => gSlots dflt r (gAll 0 sends), fun r => (gAll 0 sends).map (gIter r), fun r hr => ?_,
    fun k s hk => ⟨xnet_progress hM (by omega) hk, xnet_bound hM hk⟩, xnet_final_exists hM (by omega), fun k s hk hF r hr => ?_⟩
  · unfold sxPosts
    rw [sxTable_ok sends h.count]
    dsimp only [Res.bind]
    rw [sxCommSizes_ok sends h.count h.size]
    dsimp only [Res.bind]
    rw [sxSlots_ok dflt r _ _ 0 hcs hw32]
    dsimp only [Res.bind]
    rw [sxLoop_ok dflt r (sends.getD r []) _ (gAll 0 sends) [] _ 0 0 0 _ hcs hw32 htags (by simp [hr]) (fun g hg hs => ?_) rfl rfl]
    · rfl
    · refine (hmem g hg).2.2 _ ?_
      rw [hs, List.getD_eq_getElem?_getD, List.getElem?_eq_getElem hr]; rfl
  · have := sxStore_ok dflt r (s.got r) (gAll 0 sends) [] 0 (fun j g hg hr' => by
      rw [Nat.zero_add]
      have hj : j < sends.flatten.length := by rw [← gAll_length 0]; exact (List.getElem?_eq_some_iff.1 hg).1
      refine xnet_deliver hM hk hF g.snd r j g.tag g.pay (hmem g (List.mem_of_getElem? hg)).1 hr hj ?_
      rw [gProg_get _ _ _ _ hg]
      simp only [gIter, if_true, hr'])
    simp only [List.nil_append, List.length_nil] at this
    rw [this, gAll_recvs]
    rfl

/-- **C46, one exchange**, as a relation: it ends, and always with the specified result. -/
theorem C46_exchange_unique {B : Type} (dflt : B) (lim : Nat) (buf : Bool) (sends : List (List (SxMsg B))) (h : SxOk sends)
    (res : List (List (Nat × List B))) :
    SxEnds dflt lim buf sends res ↔ res = (List.range sends.length).map (sxExpected sends) := by
  obtain ⟨slots, posts, h1, h2, h3, h4⟩ := C46_exchange dflt lim buf sends h
  constructor
  · rintro ⟨slots', posts', k, s, a1, a2, a3, a4, a5⟩
    have hp : ∀ r < sends.length, slots' r = slots r ∧ posts' r = posts r := by
      intro r hr
      have := (h1 r hr).symm.trans (a1 r hr)
      rw [Res.ok.injEq, Prod.mk.injEq] at this
      exact ⟨this.1.symm, this.2.symm⟩
    refine List.ext_getElem? (fun r => ?_)
    by_cases hr : r < sends.length
    · rw [List.getElem?_map, List.getElem?_range hr, List.getElem?_eq_getElem (by omega)]
      have e := a5 r _ (List.getElem?_eq_getElem (by omega))
      have hrun : ∀ {k s}, XRun sends.length sends.flatten.length (lim + 1) buf (fun r i => (posts' r).getD i ⟨none, none⟩) k s →
          XRun sends.length sends.flatten.length (lim + 1) buf (fun r i => (posts r).getD i ⟨none, none⟩) k s ∧
          ∀ r, sends.length ≤ r → s.pos r = 0 := by
        intro k s hk
        induction hk with
        | init => exact ⟨XRun.init, fun _ _ => rfl⟩
        | step hk hs ih =>
          obtain ⟨ih, ih0⟩ := ih
          have hin : ∀ (s : XState (List B)) r, r < sends.length → s.inflight (fun r i => (posts' r).getD i ⟨none, none⟩) r =
              s.inflight (fun r i => (posts r).getD i ⟨none, none⟩) r := by
            intro s r hr
            unfold XState.inflight
            simp only [(hp r hr).2]
          cases hs with
          | iter r hr hp' hl =>
            refine ⟨XRun.step ih (XStep.iter _ r hr hp' (by rw [← hin _ _ hr]; exact hl)), fun x hx => ?_⟩
            simp only [upd]
            rw [if_neg (by omega)]; exact ih0 x hx
          | recv r i r' j m q hr hr' hi hj hm hq ht hg hd hs htag hno =>
            refine ⟨XRun.step ih (XStep.recv _ r i r' j m q hr hr' hi hj ?_ ?_ ht hg hd hs htag ?_), ih0⟩
            · simp only [(hp r hr).2] at hm; exact hm
            · simp only [(hp r' hr').2] at hq; exact hq
            · intro i' hi' m' hm'
              exact hno i' hi' m' (by simp only [(hp r hr).2]; exact hm')
          | sendDone r i m hr hi hm hd hb =>
            refine ⟨XRun.step ih (XStep.sendDone _ r i m hr hi ?_ hd hb), ih0⟩
            simp only [(hp r hr).2] at hm; exact hm
      have hF : s.Final sends.length sends.flatten.length (fun r i => (posts r).getD i ⟨none, none⟩) := by
        intro r hr
        have := a3 r hr
        simp only [(hp r hr).2] at this
        exact this
      have e2 := h4 k s (hrun a2).1 hF r hr
      rw [(hp r hr).1, (hp r hr).2, e2] at e
      rw [Res.ok.injEq] at e
      rw [← e]; rfl
    · rw [List.getElem?_eq_none (by omega), List.getElem?_eq_none (by simp; omega)]
  · rintro rfl
    obtain ⟨k, s, hk, hF⟩ := h3
    refine ⟨slots, posts, k, s, h1, hk, hF, by simp, fun r x hx => ?_⟩
    rw [List.getElem?_map] at hx
    by_cases hr : r < sends.length
    · rw [List.getElem?_range hr] at hx
      cases hx
      exact h4 k s hk hF r hr
    · rw [List.getElem?_eq_none (by simp; omega)] at hx; cases hx

/-- **C46, oversize payload.** If some payload has 2^31 bytes or more the exchange throws before any message is posted. -/
theorem C46_oversize_throws {B : Type} (dflt : B) (sends : List (List (SxMsg B))) (hc : sends.flatten.length < 2 ^ 31)
    (h : ∃ l ∈ sends, ∃ m ∈ l, 2 ^ 31 ≤ m.pay.length) (recv0 : List (Nat × List B)) (r : Nat) : sxPosts dflt sends recv0 r = .throws := by
  unfold sxPosts
  rw [sxTable_ok sends hc]
  dsimp only [Res.bind]
  unfold sxCommSizes
  rw [sxSizesAll_throws sends h]
  rfl

def sxDemo : List (List (SxMsg Nat)) := [[⟨1, [10, 11]⟩, ⟨0, [12]⟩, ⟨1, [13]⟩], [⟨0, []⟩, ⟨2, [14]⟩], []]

example : SxOk sxDemo := ⟨by decide, by decide, by decide, by decide⟩
example : (List.range 3).map (sxExpected sxDemo) = [[(0, [12]), (1, [])], [(0, [10, 11]), (0, [13])], [(1, [14])]] := by decide

/-! ### Batches -/

theorem sxSliceLoop_eq {T : Type} (ms : List T) (bound f j : Nat) (hf : ms.length ≤ f + j) :
    sxSliceLoop ms bound f j = (ms.drop j).take (bound - j) := by
  induction f generalizing j with
  | zero => simp [sxSliceLoop, List.drop_of_length_le (show ms.length ≤ j by omega)]
  | succ f ih =>
    simp only [sxSliceLoop]
    by_cases hj : j < bound
    · rw [if_pos hj]
      by_cases hl : j < ms.length
      · rw [List.getElem?_eq_getElem hl]
        simp only
        rw [ih (j + 1) (by omega), List.drop_eq_getElem_cons hl, show bound - j = (bound - (j + 1)) + 1 by omega, List.take_succ_cons]
      · rw [List.getElem?_eq_none (by omega), List.drop_of_length_le (by omega)]; simp
    · rw [if_neg hj, show bound - j = 0 by omega, List.take_zero]

theorem sxSlice_eq {T : Type} (ms : List T) (k mx : Nat) (h : k + mx < 2 ^ 31) : sxSlice ms (k : Int) mx = (ms.drop k).take mx := by
  unfold sxSlice
  rw [if_neg (by omega), Int.toNat_natCast, sxSliceLoop_eq _ _ _ _ (by omega), Nat.mod_eq_of_lt (by omega), Nat.add_sub_cancel_left]

theorem sxNext_eq (k mx : Nat) (h : k + mx < 2 ^ 31) : sxNext (k : Int) mx = ((k + mx : Nat) : Int) := by
  unfold sxNext
  have : ((k : Int) + (mx : Int)) % 2 ^ 32 = ((k + mx : Nat) : Int) := by omega
  simp only [this]
  rw [if_pos (by omega)]

theorem sx_foldl_max_le (l : List Nat) (a : Nat) : a ≤ l.foldl max a ∧ ∀ x ∈ l, x ≤ l.foldl max a := by
  induction l generalizing a with
  | nil => simp
  | cons y l ih =>
    obtain ⟨h1, h2⟩ := ih (max a y)
    simp only [List.foldl_cons]
    refine ⟨by omega, fun x hx => ?_⟩
    rcases List.mem_cons.1 hx with rfl | hx
    · omega
    · exact h2 x hx

theorem le_sxMaxCount {T : Type} (sends : List (List T)) (l : List T) (h : l ∈ sends) : l.length ≤ sxMaxCount sends :=
  (sx_foldl_max_le _ 0).2 _ (List.mem_map_of_mem h)

/-- A part of the messages of each rank is admissible too. -/
theorem SxOk.sub {B : Type} {sends : List (List (SxMsg B))} (h : SxOk sends) (f : List (SxMsg B) → List (SxMsg B)) (hf : ∀ l, (f l).Sublist l) :
    SxOk (sends.map f) := by
  refine ⟨by simpa using h.ranks, ?_, ?_, ?_⟩
  · refine lt_of_le_of_lt ?_ h.count
    have : (sends.map f).flatten.Sublist sends.flatten := by
      clear h
      induction sends with
      | nil => exact List.Sublist.refl _
      | cons l s ih => simp only [List.map_cons, List.flatten_cons]; exact (hf l).append ih
    exact this.length_le
  · intro l hl m hm
    obtain ⟨l', h1, rfl⟩ := List.mem_map.1 hl
    rw [List.length_map]
    exact h.recv l' h1 m ((hf l').subset hm)
  · intro l hl m hm
    obtain ⟨l', h1, rfl⟩ := List.mem_map.1 hl
    exact h.size l' h1 m ((hf l').subset hm)

/-- The batches: messages `i, …, i+mx-1` of each rank. -/
def sxBatch {T : Type} (sends : List (List T)) (i mx : Nat) : List (List T) := sends.map fun ms => (ms.drop i).take mx

/-- Specification of the batched communication: the concatenation of the exchanges of the batches starting at `i`, `i + mx`, … (`n` of them). -/
def sxBatchedFrom {B : Type} (sends : List (List (SxMsg B))) (mx r : Nat) : Nat → Nat → List (Nat × List B)
  | 0, _ => []
  | n + 1, i => sxExpected (sxBatch sends i mx) r ++ sxBatchedFrom sends mx r n (i + mx)

/-- Messages of sender `s` in a receive list. -/
def fromSender {P : Type} (s : Nat) (l : List (Nat × P)) : List P := (l.filter fun x => decide (x.1 = s)).map (·.2)

theorem fromSender_append {P : Type} (s : Nat) (a b : List (Nat × P)) : fromSender s (a ++ b) = fromSender s a ++ fromSender s b := by
  simp [fromSender]

theorem expected_fromSender_aux {B : Type} (sends : List (List (SxMsg B))) (r s k : Nat) :
    fromSender s ((sends.zipIdx k).map fun x => (x.1.filter fun m => decide (m.rcv = r)).map fun m => (x.2, m.pay)).flatten =
      if k ≤ s then ((sends.getD (s - k) []).filter fun m => decide (m.rcv = r)).map (·.pay) else [] := by
  induction sends generalizing k with
  | nil => simp [fromSender]
  | cons ms l ih =>
    simp only [List.zipIdx_cons, List.map_cons, List.flatten_cons, fromSender_append, ih (k + 1)]
    by_cases h1 : k = s
    · subst h1
      rw [if_neg (by omega), if_pos (le_refl _), List.append_nil, Nat.sub_self]
      simp only [List.getD_cons_zero]
      unfold fromSender
      rw [List.filter_eq_self.2 (by intro x hx; obtain ⟨m, -, rfl⟩ := List.mem_map.1 hx; simp)]
      simp
    · have e : fromSender s (List.map (fun m : SxMsg B => (k, m.pay)) (List.filter (fun m => decide (m.rcv = r)) ms)) = [] := by
        unfold fromSender
        rw [List.filter_eq_nil_iff.2 (by intro x hx; obtain ⟨m, -, rfl⟩ := List.mem_map.1 hx; simpa using h1)]; rfl
      rw [e, List.nil_append]
      by_cases h2 : k + 1 ≤ s
      · rw [if_pos h2, if_pos (by omega), show s - k = (s - (k + 1)) + 1 by omega, List.getD_cons_succ]
      · rw [if_neg h2, if_neg (by omega)]

theorem expected_fromSender {B : Type} (sends : List (List (SxMsg B))) (r s : Nat) :
    fromSender s (sxExpected sends r) = ((sends.getD s []).filter fun m => decide (m.rcv = r)).map (·.pay) := by
  have := expected_fromSender_aux sends r s 0
  rw [if_pos (Nat.zero_le _), Nat.sub_zero] at this
  exact this

theorem batched_fromSender {B : Type} (sends : List (List (SxMsg B))) (mx r s : Nat) (n i : Nat) (h : ∀ l ∈ sends, l.length ≤ i + n * mx) :
    fromSender s (sxBatchedFrom sends mx r n i) = (((sends.getD s []).drop i).filter fun m => decide (m.rcv = r)).map (·.pay) := by
  induction n generalizing i with
  | zero =>
    simp only [sxBatchedFrom]
    have : (sends.getD s []).length ≤ i := by
      rw [List.getD_eq_getElem?_getD]
      cases hg : sends[s]? with
      | none => simp
      | some l => have := h l (List.mem_of_getElem? hg); simpa using this
    rw [List.drop_of_length_le this]; rfl
  | succ n ih =>
    have he : (n + 1) * mx = mx + n * mx := by rw [Nat.add_mul, Nat.one_mul, Nat.add_comm]
    simp only [sxBatchedFrom, fromSender_append, expected_fromSender]
    rw [ih (i + mx) (fun l hl => by have := h l hl; rw [he] at this; omega)]
    have e : (sxBatch sends i mx).getD s [] = ((sends.getD s []).drop i).take mx := by
      unfold sxBatch
      rw [List.getD_eq_getElem?_getD, List.getD_eq_getElem?_getD, List.getElem?_map]
      cases sends[s]? <;> simp
    rw [e, ← List.map_append, ← List.filter_append]
    congr 2
    conv_rhs => rw [← List.take_append_drop mx ((sends.getD s []).drop i)]
    rw [List.drop_drop]

/-- Two receive lists with the same messages from each sender are permutations of each other. -/
theorem perm_of_fromSender {P : Type} (a b : List (Nat × P)) (h : ∀ s, fromSender s a = fromSender s b) : a.Perm b := by
  classical
  have hf : ∀ s, a.filter (fun x => decide (x.1 = s)) = b.filter (fun x => decide (x.1 = s)) := by
    intro s
    have h1 : ∀ l : List (Nat × P), l.filter (fun x => decide (x.1 = s)) = (fromSender s l).map fun p => (s, p) := by
      intro l
      unfold fromSender
      rw [List.map_map]
      conv_lhs => rw [← List.map_id (l.filter _)]
      refine List.map_congr_left (fun x hx => ?_)
      have := (List.mem_filter.1 hx).2
      simp only [decide_eq_true_eq] at this
      simp [← this]
    rw [h1, h1, h s]
  refine List.perm_iff_count.2 (fun x => ?_)
  have h2 : ∀ l : List (Nat × P), l.count x = (l.filter fun y => decide (y.1 = x.1)).count x := by
    intro l
    rw [List.count_filter (by simp)]
  rw [h2 a, h2 b, hf]

theorem zipWith_append_range {R : Type} (W : Nat) (f g : Nat → List R) :
    List.zipWith (· ++ ·) ((List.range W).map f) ((List.range W).map g) = (List.range W).map fun r => f r ++ g r := by
  rw [List.zipWith_map]
  rw [List.zipWith_self]

theorem sxBatchedFrom_append {B : Type} (sends : List (List (SxMsg B))) (mx r n i : Nat) :
    sxBatchedFrom sends mx r (n + 1) i = sxBatchedFrom sends mx r n i ++ sxExpected (sxBatch sends (i + n * mx) mx) r := by
  induction n generalizing i with
  | zero => simp [sxBatchedFrom]
  | succ n ih =>
    rw [sxBatchedFrom, ih (i + mx)]
    simp only [sxBatchedFrom, List.append_assoc]
    rw [show i + mx + n * mx = i + (n + 1) * mx by rw [Nat.add_mul, Nat.one_mul]; omega]

/-- **C46, batches.** For every positive limit for which the loop counter does not overflow: the batched communication, from empty receive lists,
ends, and always with the concatenation of the exchanges of the batches (message `i` to `i+max-1` of each rank, next `max`, …); every rank gets the
same payloads as without batches, and those of each sender in the same order. With a limit at least the number of messages of every rank the
result is identical to the unbatched one. -/
theorem C46_max_comm {B : Type} (dflt : B) (lim : Nat) (buf : Bool) (sends : List (List (SxMsg B))) (h : SxOk sends) (mx : Nat) (hmx : 0 < mx)
    (hov : ∀ k, k * mx < sxMaxCount sends → (k + 1) * mx < 2 ^ 31) :
    ∃ out : Nat → List (Nat × List B),
      (∀ res, SxMaxCommEnds dflt lim buf sends mx ((List.range sends.length).map fun _ => []) res ↔ res = (List.range sends.length).map out) ∧
      (∀ r, out r = sxBatchedFrom sends mx r ((sxMaxCount sends + mx - 1) / mx) 0) ∧
      (∀ r s, fromSender s (out r) = fromSender s (sxExpected sends r)) ∧
      (∀ r, (out r).Perm (sxExpected sends r)) ∧
      (sxMaxCount sends ≤ mx → ∀ r, out r = sxExpected sends r) := by
  set cnt := sxMaxCount sends with hcnt
  set N := (cnt + mx - 1) / mx with hN
  have hN1 : cnt ≤ N * mx := by
    have := Nat.div_add_mod (cnt + mx - 1) mx
    have h2 := Nat.mod_lt (cnt + mx - 1) hmx
    rw [← hN, Nat.mul_comm] at this
    omega
  have hN2 : ∀ k, k < N → k * mx < cnt := by
    intro k hk
    have := Nat.div_mul_le_self (cnt + mx - 1) mx
    rw [← hN] at this
    have h3 : (k + 1) * mx ≤ N * mx := Nat.mul_le_mul_right _ hk
    rw [Nat.add_mul, Nat.one_mul] at h3
    omega
  have hslice : ∀ k, k < N → (sends.map fun ms => sxSlice ms ((k * mx : Nat) : Int) mx) = sxBatch sends (k * mx) mx := by
    intro k hk
    unfold sxBatch
    refine List.map_congr_left (fun ms _ => sxSlice_eq ms _ _ ?_)
    have := hov k (hN2 k hk)
    rw [Nat.add_mul, Nat.one_mul] at this
    exact this
  have hbok : ∀ k, SxOk (sxBatch sends (k * mx) mx) := fun k => h.sub _ (fun l => (List.take_sublist _ _).trans (List.drop_sublist _ _))
  have hblen : ∀ k, (sxBatch sends k mx).length = sends.length := fun k => by simp [sxBatch]
  have hnext : ∀ k, k < N → sxNext ((k * mx : Nat) : Int) mx = (((k + 1) * mx : Nat) : Int) := by
    intro k hk
    have := hov k (hN2 k hk)
    rw [Nat.add_mul, Nat.one_mul] at this ⊢
    exact sxNext_eq _ _ this
  have key : ∀ d k res, k + d = N →
      (SxBatches (SxEnds dflt lim buf) sends mx ((k * mx : Nat) : Int) ((List.range sends.length).map fun r => sxBatchedFrom sends mx r k 0) res ↔
        res = (List.range sends.length).map fun r => sxBatchedFrom sends mx r N 0) := by
    intro d
    induction d with
    | zero =>
      intro k res hk
      have hk' : k = N := by omega
      subst hk'
      have hnot : ¬ (((N * mx : Nat) : Int) < (sxMaxCount sends : Int)) := by rw [← hcnt]; omega
      constructor
      · intro hb
        cases hb with
        | done _ _ h' => rfl
        | step _ _ res' _ h' he hr => exact absurd h' hnot
      · rintro rfl; exact SxBatches.done _ _ hnot
    | succ d ih =>
      intro k res hk
      have hlt : k < N := by omega
      have hlt2 : (((k * mx : Nat) : Int) < (sxMaxCount sends : Int)) := by have := hN2 k hlt; rw [← hcnt]; omega
      have hacc : List.zipWith (· ++ ·) ((List.range sends.length).map fun r => sxBatchedFrom sends mx r k 0)
          ((List.range sends.length).map (sxExpected (sxBatch sends (k * mx) mx))) =
          (List.range sends.length).map fun r => sxBatchedFrom sends mx r (k + 1) 0 := by
        rw [zipWith_append_range]
        refine List.map_congr_left (fun r _ => ?_)
        rw [sxBatchedFrom_append, Nat.zero_add]
      rw [← ih (k + 1) res (by omega)]
      constructor
      · intro hb
        cases hb with
        | done _ _ h' => exact absurd hlt2 h'
        | step _ _ res' _ h' he hr =>
          rw [hslice k hlt] at he
          rw [(C46_exchange_unique dflt lim buf _ (hbok k) res').1 he, hblen] at hr
          rw [hnext k hlt, hacc] at hr
          exact hr
      · intro hr
        refine SxBatches.step _ _ ((List.range sends.length).map (sxExpected (sxBatch sends (k * mx) mx))) res hlt2 ?_ ?_
        · rw [hslice k hlt, C46_exchange_unique dflt lim buf _ (hbok k), hblen]
        · rw [hnext k hlt, hacc]; exact hr
  have hfs : ∀ r s, fromSender s (sxBatchedFrom sends mx r N 0) = fromSender s (sxExpected sends r) := by
    intro r s
    rw [batched_fromSender sends mx r s N 0 (fun l hl => by have := le_sxMaxCount sends l hl; omega), expected_fromSender, List.drop_zero]
  refine ⟨fun r => sxBatchedFrom sends mx r N 0, fun res => ?_, fun r => rfl, hfs, fun r => perm_of_fromSender _ _ (hfs r), fun hle r => ?_⟩
  · have := key N 0 res (by omega)
    rw [← this]
    unfold SxMaxCommEnds
    simp [sxBatchedFrom]
  · have hb : sxBatch sends 0 mx = sends := by
      unfold sxBatch
      conv_rhs => rw [← List.map_id sends]
      refine List.map_congr_left (fun l hl => ?_)
      have := le_sxMaxCount sends l hl
      rw [List.drop_zero, List.take_of_length_le (by omega)]; rfl
    rcases Nat.eq_zero_or_pos cnt with h0 | h0
    · have hN0 : N = 0 := by rw [hN, h0, Nat.div_eq_of_lt (by omega)]
      rw [hN0]
      have : (sxExpected sends r).Perm [] := by
        have := perm_of_fromSender _ _ (hfs r)
        rw [hN0] at this
        exact this.symm
      rw [this.eq_nil]; rfl
    · have hN1' : N = 1 := by
        rw [hN, Nat.div_eq_iff hmx]; omega
      rw [hN1']
      simp [sxBatchedFrom, hb]

example : ∀ k, k * 2 < sxMaxCount sxDemo → (k + 1) * 2 < 2 ^ 31 := by
  intro k hk
  have : sxMaxCount sxDemo = 3 := by decide
  omega

example : sxBatchedFrom sxDemo 2 0 2 0 = [(0, [12]), (1, [])] ∧ sxBatchedFrom sxDemo 1 1 3 0 = [(0, [10, 11]), (0, [13])] := by decide

/-- In general the batched order differs from the unbatched one between senders. -/
example : sxBatchedFrom [[⟨0, [1]⟩, ⟨0, [2]⟩], [⟨0, [3]⟩]] 1 0 2 0 = [(0, [1]), (1, [3]), (0, [2])] ∧
    sxExpected [[⟨0, [1]⟩, ⟨0, [2]⟩], [⟨0, [3]⟩]] 0 = [(0, [1]), (0, [2]), (1, [3])] := by decide

/-- **C46 fails for the limit 0**: as soon as one rank has a message, the batched communication never returns. -/
theorem C46_zero_limit_defect {B : Type} (dflt : B) (lim : Nat) (buf : Bool) (sends : List (List (SxMsg B))) (h : 0 < sxMaxCount sends)
    (recv0 : List (List (Nat × List B))) : ¬ ∃ res, SxMaxCommEnds dflt lim buf sends 0 recv0 res := by
  rintro ⟨res, hres⟩
  have key : ∀ i acc res, SxBatches (SxEnds dflt lim buf) sends 0 i acc res → i ≠ 0 := by
    intro i acc res hb
    induction hb with
    | done i acc h' => intro h0; subst h0; exact h' (by omega)
    | step i acc r out h' he hr ih =>
      intro h0; subst h0
      exact ih (by decide)
  exact key 0 _ _ hres rfl

example : 0 < sxMaxCount sxDemo := by decide

/-- **C46 needs an empty receive list**: with a payload already in `message_recv`, `base_sparse_comm` receives into the old buffers (index 0) and not
into the ones it appended. Here the old buffer is too small for the message: out of bounds write. -/
theorem C46_nonempty_recv_defect :
    sxPosts 0 [[], [⟨0, [1, 2, 3]⟩]] [(7, [9])] 0 = .ub ∧
    (sxPosts 0 [[], [⟨0, [1]⟩]] [(7, [9])] 0).bind (fun x => sxStore (fun _ => some [1]) x.2 0 0 x.1) = .ok [(7, [1]), (1, [0])] := by
  constructor <;> rfl

end Shamrock
