import Verif.Proof.AmrTree
import Mathlib.Data.List.Basic
/-! The octree after a pass: refined leaves get eight children, the children of a merged node disappear. -/
namespace Shamrock.Amr

def Oct.isLeaf : {e : Nat} → Oct e → Bool
  | _, .leaf _ => true
  | _, .node _ => false

theorem isLeaf_iff {e : Nat} (t : Oct e) : t.isLeaf = true ↔ t = .leaf e := by
  cases t <;> simp [Oct.isLeaf]

/-- Refine the leaves whose number (counted from `off`) is in `R`, merge the families whose first leaf is in `D`. -/
def Oct.upd (R D : Nat → Bool) : {e : Nat} → Oct e → V3 Int → Nat → Oct e
  | 0, .leaf _, _, _ => .leaf 0
  | e + 1, .leaf _, _, off => if R off then .node (fun _ => .leaf e) else .leaf (e + 1)
  | _, .node (e := e) c, lo, off =>
    if D off && (List.range 8).all (fun r => (c r).isLeaf) then .leaf (e + 1)
    else .node (fun r => (c r).upd R D (kidLo lo (2 ^ e) r) (off + koff (fun r => (c r).boxes (kidLo lo (2 ^ e) r)) r))

/-- `i` belongs to a merged octet. -/
def Covered (D : Nat → Bool) (i : Nat) : Prop := ∃ d, D d = true ∧ d ≤ i ∧ i < d + 8

/-- `out i` is what leaf number `i` becomes, for the leaves of `t`, numbered from `off`. -/
structure OutOk (R D : Nat → Bool) (out : Nat → List Box) {e : Nat} (t : Oct e) (lo : V3 Int) (off : Nat) : Prop where
  split : ∀ (j : Nat) (q : V3 Int) (S : Int), (t.boxes lo)[j]? = some (cube q S) → R (off + j) = true → 1 < S ∧
    out (off + j) = (List.range 8).map fun r => cube (kidLo q (S / 2) r) (S / 2)
  same : ∀ (j : Nat) (b : Box), (t.boxes lo)[j]? = some b → R (off + j) = false → ¬ Covered D (off + j) → out (off + j) = [b]
  fam : ∀ (j d : Nat), j < (t.boxes lo).length → D d = true → d ≤ off + j → off + j < d + 8 →
    off ≤ d ∧ R (off + j) = false ∧ ∃ q s, t.IsFam lo (d - off) q s ∧ out d = [cube q (2 * s)] ∧ ∀ k, 1 ≤ k → k < 8 → out (d + k) = []

/-- A family lies inside the tree. -/
theorem IsFam.room {e : Nat} (t : Oct e) : ∀ (lo : V3 Int) (i : Nat) (q : V3 Int) (s : Int), t.IsFam lo i q s → i + 8 ≤ (t.boxes lo).length := by
  induction t with
  | leaf e => intro lo i q s h; exact h.elim
  | @node e c ih =>
    intro lo i q s h
    have hl : ((Oct.node c).boxes lo).length = koff (fun r => (c r).boxes (kidLo lo (2 ^ e) r)) 8 := by rw [Oct.boxes]; rfl
    rw [hl]
    rcases h with ⟨h1, -, -, h4⟩ | ⟨r, hr, j, h1, h2⟩
    · have h5 : ∀ r ≤ 8, koff (fun r => (c r).boxes (kidLo lo (2 ^ e) r)) r = r := by
        intro r
        induction r with
        | zero => intro _; rfl
        | succ r ihr =>
          intro hr
          rw [koff_succ, ihr (by omega), h4 r (by omega), Oct.boxes]; rfl
      rw [h5 8 (le_refl _)]; omega
    · have h3 := ih r _ _ _ _ h2
      have hm : ∀ a b, a ≤ b → koff (fun r => (c r).boxes (kidLo lo (2 ^ e) r)) a ≤ koff (fun r => (c r).boxes (kidLo lo (2 ^ e) r)) b := by
        intro a b h
        induction b with
        | zero => have : a = 0 := by omega
                  subst this; exact le_refl _
        | succ b ihb =>
          rcases Nat.lt_or_ge b a with h' | h'
          · have : a = b + 1 := by omega
            subst this; exact le_refl _
          · have := ihb h'; rw [koff_succ]; omega
      have h4 := hm (r + 1) 8 (by omega)
      rw [koff_succ] at h4
      omega

theorem koff_mono {β : Type} (f : Nat → List β) : ∀ a b, a ≤ b → koff f a ≤ koff f b := by
  intro a b h
  induction b with
  | zero => have : a = 0 := by omega
            subst this; exact le_refl _
  | succ b ihb =>
    rcases Nat.lt_or_ge b a with h' | h'
    · have : a = b + 1 := by omega
      subst this; exact le_refl _
    · have := ihb h'; rw [koff_succ]; omega

theorem range'_koff {β γ : Type} (f : Nat → List β) (out : Nat → List γ) (off : Nat) : ∀ n,
    (List.range' off (koff f n)).flatMap out =
      (List.range n).flatMap fun r => (List.range' (off + koff f r) (f r).length).flatMap out := by
  intro n
  induction n with
  | zero => rfl
  | succ n ih =>
    rw [koff_succ, ← List.range'_append_1, List.flatMap_append, ih, List.range_succ, List.flatMap_append]
    simp

/-- The leaves of the updated tree are the new blocks, in order. -/
theorem upd_boxes {R D : Nat → Bool} {out : Nat → List Box} {e : Nat} (t : Oct e) : ∀ (lo : V3 Int) (off : Nat), OutOk R D out t lo off →
    (t.upd R D lo off).boxes lo = (List.range' off (t.boxes lo).length).flatMap out := by
  induction t with
  | leaf e =>
    intro lo off h
    have hb : ((Oct.leaf e).boxes lo)[0]? = some (cube lo (2 ^ e)) := by rw [Oct.boxes]; rfl
    have hlen : ((Oct.leaf e).boxes lo).length = 1 := by rw [Oct.boxes]; rfl
    have hnc : ¬ Covered D off := by
      rintro ⟨d, h1, h2, h3⟩
      obtain ⟨-, -, q, s, h4, -⟩ := h.fam 0 d (by rw [hlen]; omega) h1 (by omega) (by omega)
      exact h4
    rw [hlen]
    show _ = out off ++ []
    rw [List.append_nil]
    cases e with
    | zero =>
      rcases hR : R off with _ | _
      · have := h.same 0 _ hb hR hnc
        rw [Oct.upd, Oct.boxes]
        exact this.symm
      · have := (h.split 0 _ _ hb hR).1
        simp at this
    | succ e =>
      rcases hR : R off with _ | _
      · have := h.same 0 _ hb hR hnc
        rw [Oct.upd, if_neg (by rw [hR]; simp), Oct.boxes]
        exact this.symm
      · have := (h.split 0 _ _ hb hR).2
        rw [Nat.add_zero] at this
        rw [Oct.upd, if_pos hR, Oct.boxes, this]
        have h2 : (2 : Int) ^ (e + 1) / 2 = 2 ^ e := by rw [pow_succ]; omega
        rw [h2]
        simp only [Oct.boxes]
        rfl
  | @node e c ih =>
    intro lo off h
    have hbx : (Oct.node c).boxes lo = (List.range 8).flatMap (fun r => (c r).boxes (kidLo lo (2 ^ e) r)) := by rw [Oct.boxes]
    have hlen : ((Oct.node c).boxes lo).length = koff (fun r => (c r).boxes (kidLo lo (2 ^ e) r)) 8 := by rw [hbx]; rfl
    by_cases hm : D off && (List.range 8).all (fun r => (c r).isLeaf)
    · rw [Oct.upd, if_pos hm]
      rw [Bool.and_eq_true] at hm
      obtain ⟨hD, hall⟩ := hm
      have hall' : ∀ r < 8, c r = .leaf e := fun r hr => (isLeaf_iff _).1 (List.all_eq_true.1 hall r (List.mem_range.2 hr))
      have h5 : ∀ r ≤ 8, koff (fun r => (c r).boxes (kidLo lo (2 ^ e) r)) r = r := by
        intro r
        induction r with
        | zero => intro _; rfl
        | succ r ihr =>
          intro hr
          rw [koff_succ, ihr (by omega), hall' r (by omega), Oct.boxes]; rfl
      have h8 := h5 8 (le_refl _)
      obtain ⟨-, -, q, s, f1, f2, f3⟩ := h.fam 0 off (by rw [hlen, h8]; omega) hD (by omega) (by omega)
      rw [hlen, h8]
      have hq : q = lo ∧ s = 2 ^ e := by
        rw [Nat.sub_self] at f1
        rcases f1 with ⟨-, a, b, -⟩ | ⟨r, hr, j, -, f⟩
        · exact ⟨a, b⟩
        · rw [hall' r hr] at f; exact f.elim
      obtain ⟨rfl, rfl⟩ := hq
      show _ = (List.range' off 8).flatMap out
      rw [show List.range' off 8 = off :: [off + 1, off + 2, off + 3, off + 4, off + 5, off + 6, off + 7] by rfl]
      simp only [List.flatMap_cons, List.flatMap_nil]
      rw [f2, f3 1 (by omega) (by omega), f3 2 (by omega) (by omega), f3 3 (by omega) (by omega), f3 4 (by omega) (by omega),
        f3 5 (by omega) (by omega), f3 6 (by omega) (by omega), f3 7 (by omega) (by omega), Oct.boxes, pow_succ]
      simp only [List.append_nil]
      rw [mul_comm]
    · rw [Oct.upd, if_neg hm, hlen, range'_koff, Oct.boxes]
      have hfm : ∀ (l : List Nat) (f g : Nat → List Box), (∀ r ∈ l, f r = g r) → l.flatMap f = l.flatMap g := by
        intro l f g hfg
        induction l with
        | nil => rfl
        | cons a l ihl =>
          rw [List.flatMap_cons, List.flatMap_cons, hfg a List.mem_cons_self, ihl (fun r hr => hfg r (List.mem_cons_of_mem _ hr))]
      apply hfm
      intro r hr
      rw [List.mem_range] at hr
      refine ih r (kidLo lo (2 ^ e) r) _ ⟨?_, ?_, ?_⟩
      · intro j q S hj hR
        have hjl := (List.getElem?_eq_some_iff.1 hj).1
        have hk := koff_get (fun r => (c r).boxes (kidLo lo (2 ^ e) r)) 8 r j hr hjl
        rw [← hbx] at hk
        have := h.split _ q S (hk.trans hj)
        rw [← Nat.add_assoc] at this
        exact this hR
      · intro j b hj hR hc
        have hjl := (List.getElem?_eq_some_iff.1 hj).1
        have hk := koff_get (fun r => (c r).boxes (kidLo lo (2 ^ e) r)) 8 r j hr hjl
        rw [← hbx] at hk
        have := h.same _ b (hk.trans hj)
        rw [← Nat.add_assoc] at this
        exact this hR hc
      · intro j d hj hD h1 h2
        have hmn := koff_mono (fun r => (c r).boxes (kidLo lo (2 ^ e) r)) (r + 1) 8 (by omega)
        rw [koff_succ] at hmn
        obtain ⟨g1, g2, q, s, g3, g4⟩ := h.fam (koff (fun r => (c r).boxes (kidLo lo (2 ^ e) r)) r + j) d (by rw [hlen]; omega) hD (by omega) (by omega)
        rw [← Nat.add_assoc] at g2
        rcases g3 with ⟨a1, -, -, a4⟩ | ⟨r', hr', j', a1, a2⟩
        · exfalso
          apply hm
          have : d = off := by omega
          subst this
          rw [hD, Bool.true_and, List.all_eq_true]
          intro x hx
          rw [a4 x (List.mem_range.1 hx)]; rfl
        · have hroom := IsFam.room _ _ _ _ _ a2
          have hrr : r' = r := by
            rcases Nat.lt_trichotomy r' r with w | w | w
            · have := koff_mono (fun r => (c r).boxes (kidLo lo (2 ^ e) r)) (r' + 1) r (by omega)
              rw [koff_succ] at this; omega
            · exact w
            · have := koff_mono (fun r => (c r).boxes (kidLo lo (2 ^ e) r)) (r + 1) r' (by omega)
              rw [koff_succ] at this; omega
          subst hrr
          refine ⟨by omega, g2, q, s, ?_, g4⟩
          rw [show d - (off + koff (fun r => (c r).boxes (kidLo lo (2 ^ e) r)) r') = j' by omega]
          exact a2

end Shamrock.Amr
