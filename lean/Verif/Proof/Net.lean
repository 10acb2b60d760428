import Verif.Model.Net
import Mathlib.Data.List.Basic
import Mathlib.Order.Basic
import Mathlib.Data.Nat.Find
import Mathlib.Algebra.Order.Group.Nat
import Mathlib.Data.List.Nodup
import Mathlib.Algebra.BigOperators.Group.List.Basic
/-! Matched point to point phases never block, terminate, and deliver what was sent. -/
namespace Shamrock

/-- Specification: sends and receives of all ranks are in bijection through (sender, receiver, tag). -/
structure NMatched {P : Type} (W : Nat) (prog : Nat → NProg P) : Prop where
  send_ok : ∀ r < W, ∀ m ∈ (prog r).sends, m.dst < W ∧ (⟨r, m.tag⟩ : NRecv) ∈ (prog m.dst).recvs
  recv_ok : ∀ r < W, ∀ q ∈ (prog r).recvs, q.src < W ∧ ∃ m ∈ (prog q.src).sends, m.dst = r ∧ m.tag = q.tag
  send_nodup : ∀ r < W, ((prog r).sends.map fun m => (m.dst, m.tag)).Nodup
  recv_nodup : ∀ r < W, (prog r).recvs.Nodup

structure NInv {P : Type} (W : Nat) (prog : Nat → NProg P) (s : NState P) : Prop where
  le : ∀ r < W, s.sent r ≤ (prog r).sends.length
  flight : ∀ m ∈ s.flight, m.src < W ∧ ∃ i < s.sent m.src, (prog m.src).sends[i]? = some ⟨m.dst, m.tag, m.pay⟩
  nodup : (s.flight.map fun m => (m.src, m.dst, m.tag)).Nodup
  got : ∀ r k p, s.got r k = some p → r < W ∧ ∃ q, (prog r).recvs[k]? = some q ∧
    (∃ i < s.sent q.src, ∃ m, (prog q.src).sends[i]? = some m ∧ m.dst = r ∧ m.tag = q.tag ∧ m.pay = p) ∧
    ∀ m ∈ s.flight, ¬ m.matches r q
  issued : ∀ r < W, ∀ i < s.sent r, ∀ m, (prog r).sends[i]? = some m →
    (⟨r, m.dst, m.tag, m.pay⟩ ∈ s.flight) ∨ ∃ k, (prog m.dst).recvs[k]? = some ⟨r, m.tag⟩ ∧ (s.got m.dst k).isSome

theorem nodup_getElem?_inj {α : Type} {l : List α} (h : l.Nodup) {i j : Nat} {a : α} (hi : l[i]? = some a) (hj : l[j]? = some a) : i = j := by
  obtain ⟨h1, e1⟩ := List.getElem?_eq_some_iff.1 hi
  obtain ⟨h2, e2⟩ := List.getElem?_eq_some_iff.1 hj
  exact (List.Nodup.getElem_inj_iff h).1 (e1.trans e2.symm)

theorem upd2 {V : Type} (f : Nat → Nat → V) (r k : Nat) (v : V) (x j : Nat) :
    upd f r (upd (f r) k v) x j = if x = r ∧ j = k then v else f x j := by
  unfold upd
  by_cases h1 : x = r
  · by_cases h2 : j = k <;> simp [h1, h2]
  · simp [h1]

theorem NInv.init {P : Type} (W : Nat) (prog : Nat → NProg P) : NInv W prog (NState.init P) :=
  ⟨fun _ _ => Nat.zero_le _, by simp [NState.init], by simp [NState.init], by simp [NState.init], by simp [NState.init]⟩

theorem send_unique {P : Type} {W : Nat} {prog : Nat → NProg P} (hM : NMatched W prog) {r : Nat} (hr : r < W) {i j : Nat} {m m' : NSend P}
    (hi : (prog r).sends[i]? = some m) (hj : (prog r).sends[j]? = some m') (hd : m.dst = m'.dst) (ht : m.tag = m'.tag) : i = j := by
  have h1 : ((prog r).sends.map fun m => (m.dst, m.tag))[i]? = some (m.dst, m.tag) := by rw [List.getElem?_map, hi]; rfl
  have h2 : ((prog r).sends.map fun m => (m.dst, m.tag))[j]? = some (m.dst, m.tag) := by rw [List.getElem?_map, hj, hd, ht]; rfl
  exact nodup_getElem?_inj (hM.send_nodup r hr) h1 h2

theorem NInv.step {P : Type} {W : Nat} {prog : Nat → NProg P} {sf ord : Bool} (hM : NMatched W prog) {s s' : NState P}
    (h : NInv W prog s) (hs : NStep W prog sf ord s s') : NInv W prog s' := by
  cases hs with
  | send r m hr hm =>
    have hlt : s.sent r < (prog r).sends.length := (List.getElem?_eq_some_iff.1 hm).1
    have hmono : ∀ x, s.sent x ≤ upd s.sent r (s.sent r + 1) x := by
      intro x; unfold upd; split
      · rename_i e; rw [e]; omega
      · exact le_rfl
    have hnew : ∀ (x : NMsg P), x ∈ s.flight → x.src = r → x.dst = m.dst → x.tag = m.tag → False := by
      intro x hx e1 e2 e3
      obtain ⟨_, i, hi, hi2⟩ := h.flight x hx
      rw [e1] at hi hi2
      have := send_unique hM hr hi2 hm e2 e3
      omega
    refine ⟨fun x hx => ?_, fun x hx => ?_, ?_, fun x k p hp => ?_, fun x hx i hi m' hm' => ?_⟩
    · simp only [upd]; split
      · rename_i e; rw [e]; omega
      · exact h.le x hx
    · rcases List.mem_append.1 hx with hx | hx
      · obtain ⟨a, i, hi, hi2⟩ := h.flight x hx
        exact ⟨a, i, lt_of_lt_of_le hi (hmono _), hi2⟩
      · simp only [List.mem_singleton] at hx
        subst hx
        exact ⟨hr, s.sent r, by simp [upd], hm⟩
    · rw [List.map_append, List.map_singleton, List.nodup_append]
      refine ⟨h.nodup, List.nodup_singleton _, fun a ha b hb => ?_⟩
      obtain ⟨x, hx, rfl⟩ := List.mem_map.1 ha
      simp only [List.mem_singleton] at hb
      rw [hb]
      intro e
      simp only [Prod.mk.injEq] at e
      exact hnew x hx e.1 e.2.1 e.2.2
    · obtain ⟨hx, q, hq, ⟨i, hi, m', h1, h2, h3, h4⟩, hno⟩ := h.got x k p hp
      refine ⟨hx, q, hq, ⟨i, lt_of_lt_of_le hi (hmono _), m', h1, h2, h3, h4⟩, fun y hy => ?_⟩
      rcases List.mem_append.1 hy with hy | hy
      · exact hno y hy
      · simp only [List.mem_singleton] at hy
        subst hy
        rintro ⟨e1, e2, e3⟩
        simp only at e1 e2 e3
        subst e1
        have := send_unique hM hr h1 hm (h2.trans e2.symm) (h3.trans e3.symm)
        omega
    · by_cases hix : i < s.sent x
      · rcases h.issued x hx i hix m' hm' with hf | hf
        · exact Or.inl (List.mem_append_left _ hf)
        · exact Or.inr hf
      · have hxr : x = r := by by_contra hne; simp only [upd, hne, if_false] at hi; omega
        subst hxr
        have : i = s.sent x := by simp only [upd, if_true] at hi; omega
        subst this
        rw [hm] at hm'
        simp only [Option.some.injEq] at hm'
        subst hm'
        exact Or.inl (List.mem_append_right _ (by simp))
  | recv r k q pre post m hr hq hn hf ho hfl hm hpre =>
    obtain ⟨e1, e2, e3⟩ := hm
    have hsub : ∀ x ∈ pre ++ post, x ∈ s.flight := by
      intro x hx; rw [hfl]
      rcases List.mem_append.1 hx with hx | hx
      · exact List.mem_append_left _ hx
      · exact List.mem_append_right _ (List.mem_cons_of_mem _ hx)
    have hnd := h.nodup
    rw [hfl, List.map_append, List.map_cons, List.nodup_middle, ← List.map_append, List.nodup_cons] at hnd
    have hother : ∀ x ∈ pre ++ post, ¬ x.matches r q := by
      rintro x hx ⟨a1, a2, a3⟩
      apply hnd.1
      rw [List.mem_map]
      exact ⟨x, hx, by rw [a1, a2, a3, e1, e2, e3]⟩
    have hmf : m ∈ s.flight := by rw [hfl]; simp
    obtain ⟨hmw, i, hi, hi2⟩ := h.flight m hmf
    refine ⟨h.le, fun x hx => h.flight x (hsub x hx), hnd.2, fun x j p hp => ?_, fun x hx j hj m' hm' => ?_⟩
    · simp only [upd2] at hp
      split at hp
      · rename_i hc
        obtain ⟨rfl, rfl⟩ := hc
        simp only [Option.some.injEq] at hp
        exact ⟨hr, q, hq, ⟨i, by rw [← e1]; exact hi, _, by rw [← e1]; exact hi2, e2, e3, hp⟩, hother⟩
      · obtain ⟨a, q', b, c, d⟩ := h.got x j p hp
        exact ⟨a, q', b, c, fun y hy => d y (hsub y hy)⟩
    · rcases h.issued x hx j hj m' hm' with hin | ⟨k', h1, h2⟩
      · rw [hfl] at hin
        rcases List.mem_append.1 hin with h1 | h1
        · exact Or.inl (List.mem_append_left _ h1)
        · rcases List.mem_cons.1 h1 with h2 | h2
          · right
            refine ⟨k, ?_, ?_⟩
            · have : q = ⟨x, m'.tag⟩ := by
                rw [← h2] at e1 e3
                simp only at e1 e3
                rw [e1, e3]
              rw [← h2] at e2
              simp only at e2
              rw [e2, hq, this]
            · rw [← h2] at e2
              simp only at e2
              simp only [upd2, e2, and_self, if_true, Option.isSome_some]
          · exact Or.inl (List.mem_append_right _ h2)
      · right
        refine ⟨k', h1, ?_⟩
        simp only [upd2]
        split
        · rfl
        · exact h2

theorem NInv.run {P : Type} {W : Nat} {prog : Nat → NProg P} {sf ord : Bool} (hM : NMatched W prog) {n : Nat} {s : NState P}
    (h : NRun W prog sf ord n s) : NInv W prog s := by
  induction h with
  | init => exact NInv.init W prog
  | step _ hs ih => exact ih.step hM hs

/-- Remaining work of a phase. -/
def netTodo {P : Type} (W : Nat) (prog : Nat → NProg P) (s : NState P) : Nat :=
  ((List.range W).map fun r => ((prog r).sends.length - s.sent r) +
    ((List.range (prog r).recvs.length).filter (fun k => (s.got r k).isNone)).length).sum

/-- Total work of a phase. -/
def netTotal {P : Type} (W : Nat) (prog : Nat → NProg P) : Nat :=
  ((List.range W).map fun r => (prog r).sends.length + (prog r).recvs.length).sum

theorem sum_map_dec {f g : Nat → Nat} (W r : Nat) (hr : r < W) (h1 : g r + 1 = f r) (h2 : ∀ x, x ≠ r → g x = f x) :
    ((List.range W).map g).sum + 1 = ((List.range W).map f).sum := by
  induction W with
  | zero => omega
  | succ n ih =>
    rw [List.range_succ, List.map_append, List.map_append, List.sum_append, List.sum_append]
    simp only [List.map_singleton, List.sum_singleton]
    by_cases hn : r = n
    · subst hn
      have : (List.range r).map g = (List.range r).map f :=
        List.map_congr_left (fun x hx => h2 x (by have := List.mem_range.1 hx; omega))
      rw [this]; omega
    · have := ih (by omega)
      rw [h2 n (fun e => hn e.symm)]
      omega

theorem filter_upd (n k : Nat) (hk : k < n) (f : Nat → Bool) (hf : f k = true) :
    ((List.range n).filter (fun x => if x = k then false else f x)).length + 1 = ((List.range n).filter f).length := by
  induction n with
  | zero => omega
  | succ n ih =>
    rw [List.range_succ, List.filter_append, List.filter_append, List.length_append, List.length_append]
    by_cases hn : k = n
    · subst hn
      have : (List.range k).filter (fun x => if x = k then false else f x) = (List.range k).filter f :=
        List.filter_congr (fun x hx => by rw [if_neg]; have := List.mem_range.1 hx; omega)
      rw [this]
      simp [hf]
    · have := ih (by omega)
      have e : (List.filter (fun x => if x = k then false else f x) [n]) = List.filter f [n] :=
        List.filter_congr (fun x hx => by simp only [List.mem_singleton] at hx; rw [hx, if_neg (fun e => hn e.symm)])
      rw [e]; omega

theorem netTodo_step {P : Type} {W : Nat} {prog : Nat → NProg P} {sf ord : Bool} {s s' : NState P}
    (hs : NStep W prog sf ord s s') : netTodo W prog s' + 1 = netTodo W prog s := by
  cases hs with
  | send r m hr hm =>
    have hlt : s.sent r < (prog r).sends.length := (List.getElem?_eq_some_iff.1 hm).1
    refine sum_map_dec W r hr ?_ (fun x hx => ?_)
    · simp only [upd, if_true]; omega
    · simp only [upd, hx, if_false]
  | recv r k q pre post m hr hq hn hf ho hfl hm hpre =>
    have hlt : k < (prog r).recvs.length := (List.getElem?_eq_some_iff.1 hq).1
    refine sum_map_dec W r hr ?_ (fun x hx => ?_)
    · have := filter_upd (prog r).recvs.length k hlt (fun k => (s.got r k).isNone) (by rw [hn]; rfl)
      have e : (List.range (prog r).recvs.length).filter (fun x => if x = k then false else (s.got r x).isNone) =
          (List.range (prog r).recvs.length).filter (fun x => (upd s.got r (upd (s.got r) k (some m.pay)) r x).isNone) := by
        apply List.filter_congr
        intro x _
        simp only [upd, if_true]
        split <;> rfl
      rw [e] at this
      simp only at this ⊢
      omega
    · simp only [upd, hx, if_false]

theorem netTodo_run {P : Type} {W : Nat} {prog : Nat → NProg P} {sf ord : Bool} {n : Nat} {s : NState P}
    (h : NRun W prog sf ord n s) : n + netTodo W prog s = netTotal W prog := by
  induction h with
  | init =>
    unfold netTodo netTotal NState.init
    simp
  | step _ hs ih =>
    have := netTodo_step hs
    omega

/-- **Matched phases never block.** In every reachable state that is not final some rank can make a step. -/
theorem net_progress {P : Type} {W : Nat} {prog : Nat → NProg P} {sf ord : Bool} (hM : NMatched W prog) {n : Nat} {s : NState P}
    (h : NRun W prog sf ord n s) : s.Final W prog ∨ ∃ s', NStep W prog sf ord s s' := by
  have hI := NInv.run hM h
  by_cases hsend : ∃ r < W, s.sent r ≠ (prog r).sends.length
  · obtain ⟨r, hr, hne⟩ := hsend
    have := hI.le r hr
    right
    exact ⟨_, NStep.send s r ((prog r).sends[s.sent r]'(by omega)) hr (List.getElem?_eq_getElem _)⟩
  · have hall : ∀ r < W, s.sent r = (prog r).sends.length := by
      intro r hr; by_contra hne; exact hsend ⟨r, hr, hne⟩
    by_cases hrec : ∃ r < W, ∃ k < (prog r).recvs.length, (s.got r k) = none
    · obtain ⟨r, hr, hk⟩ := hrec
      have : ∃ k, k < (prog r).recvs.length ∧ s.got r k = none := hk
      classical
      obtain ⟨hk1, hk2⟩ := Nat.find_spec this
      have hmin := fun j => @Nat.find_min _ _ this j
      set k := Nat.find this
      set q := (prog r).recvs[k]
      have hq : (prog r).recvs[k]? = some q := List.getElem?_eq_getElem hk1
      obtain ⟨hsw, m, hm, hd, ht⟩ := hM.recv_ok r hr q (List.getElem_mem hk1)
      obtain ⟨i, hi⟩ := List.mem_iff_getElem?.1 hm
      have hil : i < (prog q.src).sends.length := (List.getElem?_eq_some_iff.1 hi).1
      have hin : (⟨q.src, m.dst, m.tag, m.pay⟩ : NMsg P) ∈ s.flight := by
        rcases hI.issued q.src hsw i (by rw [hall _ hsw]; exact hil) m hi with h1 | ⟨k', h1, h2⟩
        · exact h1
        · exfalso
          rw [hd, ht] at h1
          have : (⟨q.src, q.tag⟩ : NRecv) = q := rfl
          rw [this] at h1
          have := nodup_getElem?_inj (hM.recv_nodup r hr) h1 hq
          rw [hd, this, hk2] at h2
          cases h2
      obtain ⟨pre, post, hfl⟩ := List.append_of_mem hin
      right
      refine ⟨_, NStep.recv s r k q pre post ⟨q.src, m.dst, m.tag, m.pay⟩ hr hq hk2 (fun _ => hall r hr) (fun _ j hj => ?_) hfl
        ⟨rfl, hd, ht⟩ ?_⟩
      · have := hmin j hj
        cases hg : s.got r j with
        | none => exact absurd ⟨by omega, hg⟩ this
        | some p => rfl
      · rintro x hx ⟨a1, a2, a3⟩
        have hnd := hI.nodup
        rw [hfl, List.map_append, List.map_cons, List.nodup_middle, List.nodup_cons] at hnd
        apply hnd.1
        rw [List.mem_append]
        left
        rw [List.mem_map]
        exact ⟨x, hx, by simp only [a1, a2, a3, hd, ht]⟩
    · left
      intro r hr
      refine ⟨hall r hr, fun k hk => ?_⟩
      cases hg : s.got r k with
      | none => exact absurd ⟨r, hr, k, hk, hg⟩ hrec
      | some p => rfl

/-- **Matched phases deliver.** A completed receive holds the payload of the one send it matches; at the end nothing is in flight. -/
theorem net_deliver {P : Type} {W : Nat} {prog : Nat → NProg P} {sf ord : Bool} (hM : NMatched W prog) {n : Nat} {s : NState P}
    (h : NRun W prog sf ord n s) :
    (∀ r k p q, s.got r k = some p → (prog r).recvs[k]? = some q →
      ∃ m ∈ (prog q.src).sends, m.dst = r ∧ m.tag = q.tag ∧ m.pay = p) ∧
    (s.Final W prog → s.flight = []) := by
  have hI := NInv.run hM h
  refine ⟨fun r k p q hg hq => ?_, fun hfin => ?_⟩
  · obtain ⟨_, q', hq', ⟨i, _, m, h1, h2, h3, h4⟩, _⟩ := hI.got r k p hg
    rw [hq] at hq'
    simp only [Option.some.injEq] at hq'
    subst hq'
    exact ⟨m, List.mem_iff_getElem?.2 ⟨i, h1⟩, h2, h3, h4⟩
  · cases hf : s.flight with
    | nil => rfl
    | cons m fl =>
      exfalso
      have hm : m ∈ s.flight := by rw [hf]; simp
      obtain ⟨hs, i, _, hi⟩ := hI.flight m hm
      obtain ⟨hd, hr⟩ := hM.send_ok m.src hs _ (List.mem_iff_getElem?.2 ⟨i, hi⟩)
      simp only at hd hr
      obtain ⟨k, hk⟩ := List.mem_iff_getElem?.1 hr
      have hkl : k < (prog m.dst).recvs.length := (List.getElem?_eq_some_iff.1 hk).1
      have := (hfin m.dst hd).2 k hkl
      cases hg : s.got m.dst k with
      | none => rw [hg] at this; cases this
      | some p =>
        obtain ⟨_, q', hq', _, hno⟩ := hI.got m.dst k p hg
        rw [hk] at hq'
        simp only [Option.some.injEq] at hq'
        subst hq'
        exact hno m hm ⟨rfl, rfl, rfl⟩

end Shamrock
