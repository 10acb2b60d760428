import Verif.Proof.SphGhostLayer
import Verif.Props.Reattribute
/-! The exchange of distributed data between ranks: what a rank gets for one pair of patches is what the owner of the sender has. -/
namespace Shamrock

theorem exchange_ok {A : Type} (rk : Nat → Nat) (n : Nat) (g : Nat → List ((Nat × Nat) × A))
    (hrs : ∀ r < n, ∀ e ∈ g r, rk e.1.1 = r ∧ e.1.1 < u64max ∧ rk e.1.2 < n ∧ e.1.2 < u64max)
    (mx dev lim : Nat) (buf : Bool) (hlim : 0 < lim) (hmx : mx < 2 ^ 31) (h8 : 8 ≤ mx)
    (ser : A → List Byte) (deser : List Byte → A) (hinv : ∀ r < n, ∀ e ∈ g r, deser (ser e.2) = e.2) (hfit : FitsComm rk mx dev ser ((List.range n).map g)) :
    CommDelivers rk mx dev lim buf (((List.range n).map g).map fun l => (splitSend rk ser l).2) fun r recv => r < n →
      MMOk (joinRecv deser recv (splitSend rk ser (g r)).1) ∧ (∀ e ∈ joinRecv deser recv (splitSend rk ser (g r)).1, rk e.1.2 = r ∧ ∃ r' < n, e ∈ g r') ∧
      ∀ S R, rk R = r → rk S < n →
        (joinRecv deser recv (splitSend rk ser (g r)).1).filter (fun e => decide (e.1 = (S, R))) = (g (rk S)).filter fun e => decide (e.1 = (S, R)) := by
  have hget : ∀ (r : Nat) l, ((List.range n).map g)[r]? = some l → r < n ∧ l = g r := by
    intro r l hl
    rw [List.getElem?_map] at hl
    by_cases hlt : r < n
    · rw [List.getElem?_range hlt, Option.map_some, Option.some.injEq] at hl
      exact ⟨hlt, hl.symm⟩
    · rw [List.getElem?_eq_none (by rw [List.length_range]; omega)] at hl; cases hl
  have hgm : ∀ l ∈ (List.range n).map g, ∃ r < n, l = g r := by
    intro l hl
    obtain ⟨r, hr, rfl⟩ := List.mem_map.1 hl
    exact ⟨r, List.mem_range.1 hr, rfl⟩
  have hu : u64max < 2 ^ 64 := by decide
  have hsub : ∀ (l : List ((Nat × Nat) × A)), ∀ x ∈ (splitSend rk ser l).2, ∃ e ∈ l, x = (e.1, ser e.2) := by
    intro l x hx
    obtain ⟨a1, a2, a3⟩ := C22_transfer_all (fun a b => decide (rk a = rk b)) l [] (by simp [MMOk])
    unfold splitSend at hx
    simp only at hx
    rw [a1] at hx
    obtain ⟨e, he, rfl⟩ := List.mem_map.1 hx
    exact ⟨e, List.mem_of_mem_filter he, rfl⟩
  have hser := C25_serialize rk mx dev lim buf ser deser ((List.range n).map g)
    (fun l hl e he => by
      obtain ⟨r, hr, rfl⟩ := hgm l hl
      exact hinv r hr e he)
    (fun r l hl e he => by
      obtain ⟨hr, rfl⟩ := hget r l hl
      exact (hrs r hr e he).1)
    ⟨by rw [List.length_map]; exact hfit.ranks, hfit.count, fun r l hl e he => by
        rw [List.getElem?_map] at hl
        obtain ⟨l0, h0, rfl⟩ := Option.map_eq_some_iff.1 hl
        obtain ⟨hr, rfl⟩ := hget r l0 h0
        obtain ⟨x, hx, rfl⟩ := hsub _ e he
        exact (hrs r hr x hx).1,
      fun l hl e he => by
        obtain ⟨l0, h0, rfl⟩ := List.mem_map.1 hl
        obtain ⟨r, hr, rfl⟩ := hgm l0 h0
        obtain ⟨x, hx, rfl⟩ := hsub _ e he
        rw [List.length_map, List.length_map, List.length_range]
        exact (hrs r hr x hx).2.2.1,
      fun l hl e he => by
        obtain ⟨l0, h0, rfl⟩ := List.mem_map.1 hl
        obtain ⟨r, hr, rfl⟩ := hgm l0 h0
        obtain ⟨x, hx, rfl⟩ := hsub _ e he
        obtain ⟨-, q1, -, q2⟩ := hrs r hr x hx
        exact ⟨q1.trans hu, q2.trans hu, (hfit.bytes _ h0 x hx).1⟩⟩
    hlim hmx h8 (fun l hl e he => (hfit.bytes l hl e he).2) hfit.alloc
  refine CommDelivers.mono hser.2 fun r _ recv hP hrlt => ?_
  obtain ⟨j1, j2, j3⟩ := hP (g r) (by rw [List.getElem?_map, List.getElem?_range hrlt]; rfl)
  generalize joinRecv deser recv (splitSend rk ser (g r)).1 = rc at j1 j2 j3 ⊢
  refine ⟨j1, fun e he => ?_, fun S R hR hS => ?_⟩
  · have hm := j2.mem_iff.1 he
    have hk := (List.mem_filter.1 hm).2
    obtain ⟨l, hl, hel⟩ := List.mem_flatten.1 (List.mem_of_mem_filter hm)
    obtain ⟨r', hr', rfl⟩ := hgm l hl
    exact ⟨by simpa using hk, r', hr', hel⟩
  · rw [j3 (S, R), List.filter_filter]
    have gen : ∀ (m : Nat), m ≤ n → ((List.range m).map g).flatten.filter (fun e => decide (e.1 = (S, R)) && decide (rk e.1.2 = r)) =
        if rk S < m then (g (rk S)).filter fun e => decide (e.1 = (S, R)) else [] := by
      intro m
      induction m with
      | zero => intro _; rfl
      | succ m ih =>
        intro hn
        rw [List.range_succ, List.map_append, List.flatten_append, List.filter_append, ih (by omega)]
        have hlast : (List.map g [m]).flatten = g m := by simp
        rw [hlast]
        by_cases hrn : rk S = m
        · rw [if_neg (by omega), if_pos (by omega), List.nil_append, hrn]
          refine List.filter_congr fun e _ => ?_
          by_cases he : e.1 = (S, R)
          · simp [he, hR]
          · simp [he]
        · have : (g m).filter (fun e => decide (e.1 = (S, R)) && decide (rk e.1.2 = r)) = [] := by
            rw [List.filter_eq_nil_iff]
            intro e he hh
            simp only [Bool.and_eq_true, decide_eq_true_eq] at hh
            have h1 := (hrs m (by omega) e he).1
            rw [hh.1] at h1
            exact hrn h1
          rw [this, List.append_nil]
          by_cases hlt : rk S < m
          · rw [if_pos hlt, if_pos (by omega)]
          · rw [if_neg hlt, if_neg (by omega)]
    rw [gen n (Nat.le_refl _), if_pos hS]

end Shamrock
