import Verif.Proof.Bitonic
import Verif.Proof.Integer
/-! C10: bitonic key/value sort. -/
namespace Shamrock

/-- C10: for every power of two length, every buffer of at least that length, every stencil size and every schedule of the
work items of every launch, the sort succeeds with the same result, the first `len` keys end up in non decreasing order, the first `len`
(key, value) pairs are a permutation of the input pairs and the rest of the buffer is untouched. -/
theorem C10_bitonic_sorts {V : Type} (maxStencil : Nat) (len : BitVec 32) (P : Nat) (hlen : len.toNat = 2 ^ P)
    (m : List (Nat × V)) (hm : len.toNat ≤ m.length) :
    ∃ out, (∀ sch, sortByKeyBitonic maxStencil len sch m = some (.ok out)) ∧ out.length = m.length ∧
      (∀ (i j : Nat) (x y : Nat × V), i ≤ j → j < len.toNat → out[i]? = some x → out[j]? = some y → x.1 ≤ y.1) ∧
      (out.take len.toNat).Perm (m.take len.toNat) ∧ out.drop len.toNat = m.drop len.toNat := by
  have hP : P < 32 := by
    have h : 2 ^ P < 2 ^ 32 := by rw [← hlen]; exact len.isLt
    exact (Nat.pow_lt_pow_iff_right (by omega)).1 h
  rw [hlen] at hm
  obtain ⟨out, h1, h2, h3, h4⟩ := outer_spec maxStencil P hP 32 0 m (by omega) (by omega) hm (stage_init P m)
  have hd : out.drop (2 ^ P) = m.drop (2 ^ P) := by
    apply List.ext_getElem?
    intro i
    rw [List.getElem?_drop, List.getElem?_drop]
    exact h3 _ (by omega)
  refine ⟨out, ?_, h2.length_eq, ?_, ?_, by rw [hlen]; exact hd⟩
  · intro sch
    unfold sortByKeyBitonic
    rw [if_pos ((isPowOfTwo_iff len).2 ⟨P, hlen⟩), hlen]
    rw [pow_zero] at h1
    rw [h1 sch]; rfl
  · intro i j x y hij hj hx hy
    exact stage_final P out h4 i j x y hij (by omega) hx hy
  · rw [hlen]
    have e1 := List.take_append_drop (2 ^ P) out
    have e2 := List.take_append_drop (2 ^ P) m
    rw [← e1, ← e2, hd] at h2
    simpa using (List.perm_append_right_iff _).1 h2

/-- C10: a length that is not a power of two is rejected. -/
theorem C10_bitonic_rejects {V : Type} (maxStencil : Nat) (len : BitVec 32) (h : ¬ ∃ k, len.toNat = 2 ^ k)
    (sch : Nat → Nat → List Nat) (m : List (Nat × V)) : sortByKeyBitonic maxStencil len sch m = some .throws := by
  unfold sortByKeyBitonic
  rw [if_neg (fun hc => h ((isPowOfTwo_iff len).1 hc))]

/-- Non trivial case: 4 elements of a buffer of 5, work items of the launches interleaved. -/
example : (sortByKeyBitonic 16 4#32 (fun _ _ => [1, 0, 0, 1]) [(7, 0), (3, 1), (9, 2), (1, 3), (0, 4)]) =
    some (.ok [(1, 3), (3, 1), (7, 0), (9, 2), (0, 4)]) := by decide +kernel

end Shamrock
