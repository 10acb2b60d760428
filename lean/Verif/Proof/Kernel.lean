import Verif.Model.Kernel
import Mathlib.Data.List.Basic
/-! Work items with disjoint footprints: every interleaving gives the result of the items running alone. -/
namespace Shamrock

/-- The step reads and writes only addresses in `S`. -/
structure LocalStep {L α : Type} (S : Nat → Prop) (st : KStep L α) : Prop where
  frame : ∀ l m l' m', st l m = some (l', m') → m'.length = m.length ∧ ∀ i : Nat, ¬ S i → m'[i]? = m[i]?
  loc : ∀ l m m2 l' m', m.length = m2.length → (∀ i : Nat, S i → m[i]? = m2[i]?) → st l m = some (l', m') →
    ∃ m2', st l m2 = some (l', m2') ∧ ∀ i : Nat, S i → m'[i]? = m2'[i]?

theorem itemRun_frame {L α : Type} (S : Nat → Prop) (p : List (KStep L α)) (hp : ∀ s ∈ p, LocalStep S s) :
    ∀ l m l' m', itemRun p l m = some (l', m') → m'.length = m.length ∧ ∀ i : Nat, ¬ S i → m'[i]? = m[i]? := by
  induction p with
  | nil => intro l m l' m' h; simp [itemRun] at h; rw [h.2]; exact ⟨rfl, fun _ _ => rfl⟩
  | cons s r ih =>
    intro l m l' m' h
    simp only [itemRun] at h
    cases hs : s l m with
    | none => rw [hs] at h; simp at h
    | some q =>
      obtain ⟨l1, m1⟩ := q
      rw [hs] at h
      simp only [Option.bind_eq_bind, Option.bind_some] at h
      obtain ⟨a1, a2⟩ := (hp s List.mem_cons_self).frame l m l1 m1 hs
      obtain ⟨b1, b2⟩ := ih (fun s hs => hp s (List.mem_cons_of_mem _ hs)) l1 m1 l' m' h
      exact ⟨by omega, fun i hi => by rw [b2 i hi, a2 i hi]⟩

theorem itemRun_loc {L α : Type} (S : Nat → Prop) (p : List (KStep L α)) (hp : ∀ s ∈ p, LocalStep S s) :
    ∀ l m m2 l' m', m.length = m2.length → (∀ i : Nat, S i → m[i]? = m2[i]?) → itemRun p l m = some (l', m') →
      ∃ m2', itemRun p l m2 = some (l', m2') ∧ ∀ i : Nat, S i → m'[i]? = m2'[i]? := by
  induction p with
  | nil =>
    intro l m m2 l' m' hl ha h
    simp [itemRun] at h
    refine ⟨m2, by simp [itemRun, h.1], ?_⟩
    rw [← h.2]; exact ha
  | cons s r ih =>
    intro l m m2 l' m' hl ha h
    simp only [itemRun] at h ⊢
    cases hs : s l m with
    | none => rw [hs] at h; simp at h
    | some q =>
      obtain ⟨l1, m1⟩ := q
      rw [hs] at h
      simp only [Option.bind_eq_bind, Option.bind_some] at h
      have hloc := hp s List.mem_cons_self
      obtain ⟨m3, c1, c2⟩ := hloc.loc l m m2 l1 m1 hl ha hs
      have f1 := (hloc.frame l m l1 m1 hs).1
      have f2 := (hloc.frame l m2 l1 m3 c1).1
      obtain ⟨m4, d1, d2⟩ := ih (fun s hs => hp s (List.mem_cons_of_mem _ hs)) l1 m1 m3 l' m' (by omega) c2 h
      refine ⟨m4, ?_, d2⟩
      rw [c1]
      simp only [Option.bind_eq_bind, Option.bind_some]
      exact d1

/-- Invariant of an interleaved execution. -/
structure KInv {L α : Type} (n : Nat) (S : Nat → Nat → Prop) (m0 : List α) (res : Nat → List α) (st : KState L α) : Prop where
  local_ : ∀ t s, s ∈ st.rem t → LocalStep (S t) s
  idle : ∀ t, n ≤ t → st.rem t = []
  len : st.mem.length = m0.length
  out : ∀ i : Nat, (∀ t < n, ¬ S t i) → st.mem[i]? = m0[i]?
  fut : ∀ t < n, ∃ l' m', itemRun (st.rem t) (st.loc t) st.mem = some (l', m') ∧ ∀ i : Nat, S t i → m'[i]? = (res t)[i]?

theorem KInv_step {L α : Type} (n : Nat) (S : Nat → Nat → Prop) (hS : ∀ t < n, ∀ t' < n, t ≠ t' → ∀ i, S t i → ¬ S t' i)
    (m0 : List α) (res : Nat → List α) (st : KState L α) (h : KInv n S m0 res st) (t : Nat) :
    ∃ st', st.step t = some st' ∧ KInv n S m0 res st' ∧
      (∀ k, (st'.rem k).length = if k = t then (st.rem k).length - 1 else (st.rem k).length) := by
  unfold KState.step
  cases hr : st.rem t with
  | nil => exact ⟨st, rfl, h, fun k => by split <;> simp_all⟩
  | cons s r =>
    have ht : t < n := by
      by_contra hc
      have := h.idle t (by omega)
      rw [hr] at this; cases this
    obtain ⟨l', m', hf, hres⟩ := h.fut t ht
    rw [hr] at hf
    simp only [itemRun] at hf
    cases hs : s (st.loc t) st.mem with
    | none => rw [hs] at hf; simp at hf
    | some q =>
      obtain ⟨l1, m1⟩ := q
      rw [hs] at hf
      simp only [Option.bind_eq_bind, Option.bind_some] at hf
      have hloc := h.local_ t s (by rw [hr]; exact List.mem_cons_self)
      obtain ⟨f1, f2⟩ := hloc.frame _ _ _ _ hs
      simp only [hs, Option.bind_eq_bind, Option.bind_some, Option.pure_def]
      refine ⟨_, rfl, ⟨?_, ?_, ?_, ?_, ?_⟩, ?_⟩
      · intro k s' hs'
        simp only at hs'
        split at hs'
        · rename_i hk; subst hk
          exact h.local_ k s' (by rw [hr]; exact List.mem_cons_of_mem _ hs')
        · exact h.local_ k s' hs'
      · intro k hk
        simp only
        rw [if_neg (by omega)]; exact h.idle k hk
      · simp only; rw [f1, h.len]
      · intro i hi
        simp only
        rw [f2 i (hi t ht)]; exact h.out i hi
      · intro k hk
        simp only
        by_cases hkt : k = t
        · subst hkt
          simp only [if_true]
          exact ⟨l', m', hf, hres⟩
        · simp only [if_neg hkt]
          obtain ⟨lk, mk, e1, e2⟩ := h.fut k hk
          obtain ⟨mk', g1, g2⟩ := itemRun_loc (S k) (st.rem k) (h.local_ k) (st.loc k) st.mem m1 lk mk f1.symm
            (fun i hi => (f2 i (fun hc => hS k hk t ht hkt i hi hc)).symm) e1
          exact ⟨lk, mk', g1, fun i hi => by rw [← g2 i hi]; exact e2 i hi⟩
      · intro k
        simp only
        split
        · rename_i hk; subst hk; rw [hr]; simp
        · rfl

theorem KInv_exec {L α : Type} (n : Nat) (S : Nat → Nat → Prop) (hS : ∀ t < n, ∀ t' < n, t ≠ t' → ∀ i, S t i → ¬ S t' i)
    (m0 : List α) (res : Nat → List α) : ∀ (sched : List Nat) (st : KState L α), KInv n S m0 res st →
    ∃ st', st.exec sched = some st' ∧ KInv n S m0 res st' ∧ (∀ k, (st'.rem k).length = (st.rem k).length - sched.count k) := by
  intro sched
  induction sched with
  | nil => intro st h; exact ⟨st, rfl, h, fun k => by simp⟩
  | cons t r ih =>
    intro st h
    obtain ⟨s1, a1, a2, a3⟩ := KInv_step n S hS m0 res st h t
    obtain ⟨s2, b1, b2, b3⟩ := ih s1 a2
    refine ⟨s2, ?_, b2, ?_⟩
    · simp only [KState.exec, a1, Option.bind_eq_bind, Option.bind_some]; exact b1
    · intro k
      rw [b3 k, a3 k, List.count_cons]
      by_cases hk : k = t
      · subst hk; simp; omega
      · have : ¬ t = k := fun h => hk h.symm
        simp [hk, this]

theorem drain_count {L α : Type} (prog : Nat → List (KStep L α)) (n k : Nat) (hk : k < n) :
    (prog k).length ≤ (drain prog n).count k := by
  unfold drain
  induction n with
  | zero => omega
  | succ n ih =>
    rw [List.range_succ, List.flatMap_append, List.count_append]
    by_cases h : k = n
    · subst h; simp
    · have := ih (by omega); omega

/-- Main result: items with pairwise disjoint footprints that succeed when run alone on the initial buffer: every schedule of
the launch succeeds and leaves in each footprint what the item alone would leave, and nothing else changes. -/
theorem kLaunch_disjoint {L α : Type} (n : Nat) (prog : Nat → List (KStep L α)) (l0 : L) (S : Nat → Nat → Prop)
    (hS : ∀ t < n, ∀ t' < n, t ≠ t' → ∀ i, S t i → ¬ S t' i) (hloc : ∀ t < n, ∀ s ∈ prog t, LocalStep (S t) s) (m : List α)
    (res : Nat → List α) (hrun : ∀ t < n, ∃ l', itemRun (prog t) l0 m = some (l', res t)) (sched : List Nat) :
    ∃ out, kLaunch n prog l0 sched m = some out ∧ out.length = m.length ∧
      (∀ t < n, ∀ i : Nat, S t i → out[i]? = (res t)[i]?) ∧ (∀ i : Nat, (∀ t < n, ¬ S t i) → out[i]? = m[i]?) := by
  have hinit : KInv n S m res (⟨fun t => if t < n then prog t else [], fun _ => l0, m⟩ : KState L α) := by
    refine ⟨?_, ?_, rfl, fun _ _ => rfl, ?_⟩
    · intro t s hs
      simp only at hs
      split at hs
      · rename_i ht; exact hloc t ht s hs
      · cases hs
    · intro t ht; simp only; rw [if_neg (by omega)]
    · intro t ht
      simp only
      rw [if_pos ht]
      obtain ⟨l', h⟩ := hrun t ht
      exact ⟨l', _, h, fun _ _ => rfl⟩
  obtain ⟨st, h1, h2, h3⟩ := KInv_exec n S hS m res (sched ++ drain prog n) _ hinit
  refine ⟨st.mem, by unfold kLaunch; rw [h1]; rfl, h2.len, ?_, h2.out⟩
  intro t ht i hi
  have hz : (st.rem t).length = 0 := by
    have := h3 t
    simp only [if_pos ht, List.count_append] at this
    have := drain_count prog n t ht
    omega
  obtain ⟨l', m', e1, e2⟩ := h2.fut t ht
  rw [List.length_eq_zero_iff.1 hz] at e1
  simp only [itemRun, Option.some.injEq, Prod.mk.injEq] at e1
  rw [e1.2]; exact e2 i hi

end Shamrock
