import Verif.Model.Serialize
import Verif.Proof.Kernel
import Verif.Props.ByteStream
/-! Lemmas on the serializer. -/
namespace Shamrock

theorem u64_small (x : Nat) (h : x < 2 ^ 64) : u64 x = x := Nat.mod_eq_of_lt h

theorem alignRepr_spec (x : Nat) (h : x < 2 ^ 63) : alignRepr x % 8 = 0 ∧ x ≤ alignRepr x ∧ alignRepr x < x + 8 := by
  unfold alignRepr u64
  simp only
  split <;> omega

theorem alignRepr_eq (x : Nat) (h : x < 2 ^ 63) : alignRepr x = (x + 7) / 8 * 8 := by
  have := alignRepr_spec x h; omega

theorem localStep_byte (S : Nat → Prop) (a : Nat) (b : Byte) (h : S a) : LocalStep S (byteStep a b) := by
  refine ⟨?_, ?_⟩
  · intro l m l' m' e
    unfold byteStep at e
    split at e
    · injection e with e; injection e with e1 e2; subst e2
      refine ⟨by simp, fun i hi => ?_⟩
      rw [List.getElem?_set_ne (by rintro rfl; exact hi h)]
    · cases e
  · intro l m m2 l' m' hlen heq e
    unfold byteStep at e ⊢
    split at e
    · rename_i hlt
      injection e with e; injection e with e1 e2; subst e2
      rw [if_pos (by omega)]
      refine ⟨_, by rw [e1], fun i hi => ?_⟩
      by_cases hia : a = i
      · subst hia; rw [List.getElem?_set_self hlt, List.getElem?_set_self (by omega)]
      · rw [List.getElem?_set_ne hia, List.getElem?_set_ne hia]; exact heq i hi
    · cases e

theorem localStep_elem {α : Type} (S : Nat → Prop) (a : Nat) (r : Option α) (h : S a) :
    LocalStep S (assignStep a r) := by
  unfold assignStep
  cases r with
  | none => exact ⟨fun l m l' m' e => (by cases e), fun l m m2 l' m' _ _ e => (by cases e)⟩
  | some b =>
    refine ⟨?_, ?_⟩
    · intro l m l' m' e
      simp only at e
      split at e
      · injection e with e; injection e with e1 e2; subst e2
        refine ⟨by simp, fun i hi => ?_⟩
        rw [List.getElem?_set_ne (by rintro rfl; exact hi h)]
      · cases e
    · intro l m m2 l' m' hlen heq e
      simp only at e ⊢
      split at e
      · rename_i hlt
        injection e with e; injection e with e1 e2; subst e2
        rw [if_pos (by omega)]
        refine ⟨_, by rw [e1], fun i hi => ?_⟩
        by_cases hia : a = i
        · subst hia; rw [List.getElem?_set_self hlt, List.getElem?_set_self (by omega)]
        · rw [List.getElem?_set_ne hia, List.getElem?_set_ne hia]; exact heq i hi
      · cases e

theorem byteProg_local (S : Nat → Prop) (v : List Byte) : ∀ a, (∀ i, a ≤ i → i < a + v.length → S i) →
    ∀ s ∈ byteProg a v, LocalStep S s := by
  induction v with
  | nil => intro a _ s hs; cases hs
  | cons b r ih =>
    intro a h s hs
    simp only [List.length_cons] at h
    rcases List.mem_cons.1 hs with rfl | hs
    · exact localStep_byte S a b (h a (le_refl _) (by omega))
    · exact ih (a + 1) (fun i h1 h2 => h i (by omega) (by omega)) s hs

theorem byteProg_run (v : List Byte) : ∀ (a : Nat) (m : List Byte), a + v.length ≤ m.length →
    ∃ m', itemRun (byteProg a v) () m = some ((), m') ∧ m'.length = m.length ∧
      (∀ j, j < v.length → m'[a + j]? = v[j]?) ∧ (∀ i, i < a ∨ a + v.length ≤ i → m'[i]? = m[i]?) := by
  induction v with
  | nil => intro a m _; exact ⟨m, rfl, rfl, by simp, fun _ _ => rfl⟩
  | cons b r ih =>
    intro a m h
    simp only [List.length_cons] at h
    obtain ⟨m', h1, h2, h3, h4⟩ := ih (a + 1) (m.set a b) (by simp; omega)
    refine ⟨m', ?_, by rw [h2]; simp, ?_, ?_⟩
    · simp only [byteProg, itemRun, byteStep]
      rw [if_pos (by omega)]
      exact h1
    · intro j hj
      cases j with
      | zero =>
        rw [Nat.add_zero, h4 a (Or.inl (by omega)), List.getElem?_set_self (by omega)]; rfl
      | succ j =>
        simp only [List.length_cons] at hj
        have := h3 j (by omega)
        rw [show a + (j + 1) = a + 1 + j by omega, this]; rfl
    · intro i hi
      simp only [List.length_cons] at hi
      rw [h4 i (by omega), List.getElem?_set_ne (by omega)]

/-- `bs` is stored at `pos`. -/
def HasAt (m : List Byte) (pos : Nat) (bs : List Byte) : Prop := ∀ j, j < bs.length → m[pos + j]? = bs[j]?

theorem HasAt.mono {m m' : List Byte} {pos : Nat} {bs : List Byte} (h : HasAt m pos bs)
    (he : ∀ i, pos ≤ i → i < pos + bs.length → m'[i]? = m[i]?) : HasAt m' pos bs :=
  fun j hj => by rw [he (pos + j) (by omega) (by omega)]; exact h j hj

theorem HasAt.slice {m : List Byte} {pos : Nat} {bs : List Byte} (h : HasAt m pos bs) : (m.drop pos).take bs.length = bs := by
  apply List.ext_getElem?
  intro i
  rw [List.getElem?_take]
  split
  · rw [List.getElem?_drop]; exact h i (by assumption)
  · rw [List.getElem?_eq_none (by omega)]

theorem loadAt_of (t : STy) (m : List Byte) (pos : Nat) (v : List Byte) (ha : pos % t.al = 0) (hv : v.length = t.sz)
    (hl : pos + t.sz ≤ m.length) (h : HasAt m pos v) : loadAt t m pos = some v := by
  unfold loadAt
  rw [if_pos ⟨ha, hl⟩, ← hv, h.slice]

/-- The write kernel. -/
theorem writeKernel (t : STy) (hz : 0 < t.sz) (elems : List (List Byte)) (len head : Nat) (sched : List Nat) (m : List Byte)
    (hal : ∀ i < len, (head + i * t.sz) % t.al = 0) (hlen : len ≤ elems.length) (hsz : ∀ v ∈ elems, v.length = t.sz)
    (hm : head + len * t.sz ≤ m.length) (hbig : m.length < 2 ^ 64) :
    ∃ m', kLaunch len (writeItem t elems head) () sched m = some m' ∧ m'.length = m.length ∧
      (∀ i, i < len → ∀ v, elems[i]? = some v → HasAt m' (head + i * t.sz) v) ∧
      (∀ i, i < head ∨ head + len * t.sz ≤ i → m'[i]? = m[i]?) := by
  have hin : ∀ i < len, head + i * t.sz + t.sz ≤ m.length := by
    intro i hi
    have h1 : (i + 1) * t.sz ≤ len * t.sz := Nat.mul_le_mul_right _ (by omega)
    rw [Nat.add_mul, Nat.one_mul] at h1
    omega
  have hprog : ∀ i < len, ∃ v, elems[i]? = some v ∧ v.length = t.sz ∧ writeItem t elems head i = byteProg (head + i * t.sz) v := by
    intro i hi
    refine ⟨elems[i], List.getElem?_eq_getElem (by omega), hsz _ (List.getElem_mem _), ?_⟩
    unfold writeItem
    rw [List.getElem?_eq_getElem (show i < elems.length by omega)]
    have h2 := hin i hi
    simp only [storeProg]
    rw [u64_small _ (by omega), if_pos (hal i hi)]
  have hdisj : ∀ i < len, ∀ i' < len, i ≠ i' → ∀ k, (head + i * t.sz ≤ k ∧ k < head + i * t.sz + t.sz) →
      ¬ (head + i' * t.sz ≤ k ∧ k < head + i' * t.sz + t.sz) := by
    intro i _ i' _ hne k hk hk'
    rcases Nat.lt_or_gt_of_ne hne with h | h
    · have h1 : (i + 1) * t.sz ≤ i' * t.sz := Nat.mul_le_mul_right _ (by omega)
      rw [Nat.add_mul, Nat.one_mul] at h1; omega
    · have h1 : (i' + 1) * t.sz ≤ i * t.sz := Nat.mul_le_mul_right _ (by omega)
      rw [Nat.add_mul, Nat.one_mul] at h1; omega
  have hrun : ∀ i < len, ∃ r, ∃ l', itemRun (writeItem t elems head i) () m = some (l', r) ∧ (∀ v, elems[i]? = some v → HasAt r (head + i * t.sz) v) := by
    intro i hi
    obtain ⟨v, e1, e2, e3⟩ := hprog i hi
    rw [e3]
    obtain ⟨m', h1, _, h3, _⟩ := byteProg_run v (head + i * t.sz) m (by have := hin i hi; omega)
    exact ⟨m', (), h1, fun w hw => by rw [e1] at hw; injection hw with hw; subst hw; exact h3⟩
  choose! res hres using hrun
  obtain ⟨out, o1, o2, o3, o4⟩ := kLaunch_disjoint len (writeItem t elems head) () (fun i k => head + i * t.sz ≤ k ∧ k < head + i * t.sz + t.sz) hdisj
    (fun i hi s hs => by
      obtain ⟨v, e1, e2, e3⟩ := hprog i hi
      rw [e3] at hs
      exact byteProg_local _ v _ (fun k h1 h2 => ⟨h1, by omega⟩) s hs) m res
    (fun i hi => by obtain ⟨l', h1, _⟩ := hres i hi; exact ⟨l', h1⟩) sched
  refine ⟨out, o1, o2, ?_, ?_⟩
  · intro i hi v hv
    obtain ⟨l', _, h2⟩ := hres i hi
    obtain ⟨w, e1, e2, _⟩ := hprog i hi
    have hw : w.length = v.length := by rw [hv] at e1; injection e1 with e1; rw [e1]
    intro j hj
    rw [o3 i hi (head + i * t.sz + j) ⟨by omega, by omega⟩]
    exact h2 v hv j hj
  · intro k hk
    apply o4 k
    intro i hi ⟨h1, h2⟩
    have h3 : (i + 1) * t.sz ≤ len * t.sz := Nat.mul_le_mul_right _ (by omega)
    rw [Nat.add_mul, Nat.one_mul] at h3
    omega

/-- One assignment per work item, to distinct places. -/
theorem setKernel {α : Type} (n : Nat) (val : Nat → Option α) (dest : List α) (sched : List Nat) (hn : n ≤ dest.length)
    (hv : ∀ i < n, (val i).isSome) :
    ∃ out, kLaunch n (fun i => [assignStep i (val i)]) () sched dest = some out ∧ out.length = dest.length ∧ (∀ i < n, out[i]? = val i) ∧
      (∀ i, n ≤ i → out[i]? = dest[i]?) := by
  obtain ⟨out, o1, o2, o3, o4⟩ := kLaunch_disjoint n (fun i => [assignStep i (val i)]) () (fun i k => k = i) (fun i _ i' _ hne k h h' => hne (by omega))
    (fun i hi s hs => by rw [List.mem_singleton.1 hs]; exact localStep_elem _ i (val i) rfl) dest
    (fun i => match val i with | some b => dest.set i b | none => dest)
    (fun i hi => by
      obtain ⟨b, hb⟩ := Option.isSome_iff_exists.1 (hv i hi)
      refine ⟨(), ?_⟩
      simp only [itemRun, assignStep, hb]
      rw [if_pos (by omega)]
      rfl) sched
  refine ⟨out, o1, o2, ?_, ?_⟩
  · intro i hi
    rw [o3 i hi i rfl]
    obtain ⟨b, hb⟩ := Option.isSome_iff_exists.1 (hv i hi)
    simp only [hb]
    rw [List.getElem?_set_self (by omega)]
  · intro i hi
    exact o4 i (fun t ht e => by omega)

/-- The header write kernel. -/
theorem headerKernel (header m : List Byte) (sched : List Nat) (hm : preHead + header.length ≤ m.length) :
    ∃ m', writeHeader m header header.length sched = .ok m' ∧ m'.length = m.length ∧ HasAt m' preHead header ∧
      (∀ i, i < preHead ∨ preHead + header.length ≤ i → m'[i]? = m[i]?) := by
  have hprog : ∀ i (hi : i < header.length), headerItem header i = [byteStep (i + preHead) header[i]] := by
    intro i hi
    unfold headerItem
    rw [List.getElem?_eq_getElem hi]
  obtain ⟨out, o1, o2, o3, o4⟩ := kLaunch_disjoint header.length (headerItem header) () (fun i k => k = i + preHead) (fun i _ i' _ hne k h h' => hne (by omega))
    (fun i hi s hs => by
      rw [hprog i hi] at hs
      rw [List.mem_singleton.1 hs]; exact localStep_byte _ _ _ rfl) m
    (fun i => match header[i]? with | some b => m.set (i + preHead) b | none => m)
    (fun i hi => by
      refine ⟨(), ?_⟩
      rw [hprog i hi, List.getElem?_eq_getElem hi]
      simp only [itemRun, byteStep]
      rw [if_pos (by omega)]
      rfl) sched
  refine ⟨out, ?_, o2, ?_, ?_⟩
  · unfold writeHeader; rw [o1]; rfl
  · intro j hj
    rw [o3 j hj (preHead + j) (by omega)]
    rw [List.getElem?_eq_getElem hj]
    simp only
    rw [show preHead + j = j + preHead by omega, List.getElem?_set_self (by omega)]
  · intro i hi
    exact o4 i (fun t ht e => by omega)

end Shamrock
