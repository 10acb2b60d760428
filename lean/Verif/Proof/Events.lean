import Verif.Model.Events
/-! Invariant of the event tracking. -/
namespace Shamrock

/-- Completion of `f` implies completion of `e`. -/
inductive Waits (td : Nat → List Nat) : Nat → Nat → Prop
  | refl (f : Nat) : Waits td f f
  | step {f d e : Nat} : d ∈ td f → Waits td d e → Waits td f e

/-- `e` is complete, or completes before one of the events of `L`. -/
def Cov (w : EvWorld) (L : List Nat) (e : Nat) : Prop := w.done e = true ∨ ∃ f ∈ L, Waits w.tdeps f e

structure EInv (w : EvWorld) : Prop where
  rBuf : ∀ b, ∀ e ∈ (w.buf b).readEv ++ (w.buf b).writeEv, e < w.nextEv
  rDeps : ∀ o, ∀ e ∈ w.deps o, e < w.nextEv
  rTasks : ∀ o, ∀ e ∈ w.tasks o, e < w.nextEv
  rTd : ∀ e, ∀ d ∈ w.tdeps e, d < e ∧ e < w.nextEv
  sd : ∀ e, w.done e = true → w.started e = true
  ss : ∀ e, w.started e = true → e < w.nextEv ∧ ∀ d ∈ w.tdeps e, w.done d = true
  hold : ∀ b, (w.buf b).upToDate = (w.holder b).isNone
  held : ∀ b o, w.holder b = some o → ∃ l, w.hist b = l ++ [(o, (w.buf b).lastW)]
  tk : ∀ o, ∀ e ∈ w.tasks o, w.tdeps e = w.deps o
  past : ∀ b (i : Nat) A wa, (w.hist b)[i]? = some (A, wa) → w.closed A = true ∨ (w.holder b = some A ∧ i + 1 = (w.hist b).length)
  conf : ∀ b (i j : Nat) A wa B wb, i < j → (w.hist b)[i]? = some (A, wa) → (w.hist b)[j]? = some (B, wb) → (wa = true ∨ wb = true) →
    ∀ e ∈ w.tasks A, Cov w (w.deps B) e
  cover : ∀ b (i : Nat) A wa, (w.hist b)[i]? = some (A, wa) → (w.holder b = none ∨ i + 1 < (w.hist b).length) →
    ∀ e ∈ w.tasks A, Cov w ((w.buf b).writeEv ++ (if wa = true then [] else (w.buf b).readEv)) e

theorem updF_same {V : Type} (f : Nat → V) (k : Nat) (v : V) : updF f k v k = v := if_pos rfl
theorem updF_ne {V : Type} (f : Nat → V) (k : Nat) (v : V) {x : Nat} (h : x ≠ k) : updF f k v x = f x := if_neg h

theorem EInv.init (junk : Nat → Bool) : EInv (EvWorld.init junk) := by
  constructor <;> simp [EvWorld.init, BufH.init]

theorem waits_done {w : EvWorld} (H : EInv w) {f e : Nat} (h : Waits w.tdeps f e) : w.done f = true → w.done e = true := by
  induction h with
  | refl => exact id
  | step hd _ ih => intro h; exact ih ((H.ss _ (H.sd _ h)).2 _ hd)

theorem Cov.mono {w : EvWorld} {L L' : List Nat} {e : Nat} (h : Cov w L e) (hs : ∀ f ∈ L, f ∈ L') : Cov w L' e := by
  rcases h with h | ⟨f, h1, h2⟩
  · exact Or.inl h
  · exact Or.inr ⟨f, hs f h1, h2⟩

theorem Cov.filter {w : EvWorld} (H : EInv w) {L : List Nat} {e : Nat} {seen : Nat → Bool} (hs : w.honest seen) (h : Cov w L e) :
    Cov w (L.filter (fun e => !seen e)) e := by
  rcases h with h | ⟨f, h1, h2⟩
  · exact Or.inl h
  · cases hsf : seen f with
    | true => exact Or.inl (waits_done H h2 (hs f hsf))
    | false => exact Or.inr ⟨f, List.mem_filter.2 ⟨h1, by simp [hsf]⟩, h2⟩

theorem access_ok {h h' : BufH} {write : Bool} {seen : Nat → Bool} {dl dl' : List Nat} (e : h.access write seen dl = .ok (h', dl')) :
    h.upToDate = true ∧ h' = ⟨h.readEv.filter (fun e => !seen e), h.writeEv.filter (fun e => !seen e), write, false⟩ ∧
    dl' = dl ++ (h.writeEv.filter (fun e => !seen e) ++ (if write = true then h.readEv.filter (fun e => !seen e) else [])) := by
  unfold BufH.access at e
  cases write with
  | true =>
    rw [if_pos rfl] at e
    unfold BufH.writeAccess at e
    cases hu : h.upToDate with
    | false => rw [hu, if_pos rfl] at e; cases e
    | true =>
      rw [hu, if_neg (by simp)] at e
      simp only at e
      have e := Res.ok.inj e
      rw [Prod.mk.injEq] at e
      refine ⟨rfl, e.1.symm, ?_⟩
      rw [← e.2, if_pos rfl, List.append_assoc]; rfl
  | false =>
    rw [if_neg (by simp)] at e
    unfold BufH.readAccess at e
    cases hu : h.upToDate with
    | false => rw [hu, if_pos rfl] at e; cases e
    | true =>
      rw [hu, if_neg (by simp)] at e
      simp only at e
      have e := Res.ok.inj e
      rw [Prod.mk.injEq] at e
      refine ⟨rfl, e.1.symm, ?_⟩
      rw [← e.2, if_neg (by simp), List.append_nil]; rfl

theorem complete_ok {h h' : BufH} {seen : Nat → Bool} {ev : List Nat} (e : h.completeState seen ev = .ok h') :
    h.upToDate = false ∧ h' = ⟨if h.lastW = true then [] else h.readEv.filter (fun e => !seen e) ++ ev,
      if h.lastW = true then ev else h.writeEv.filter (fun e => !seen e), h.lastW, true⟩ := by
  obtain ⟨r, v, lw, ut⟩ := h
  cases ut with
  | true => cases e
  | false =>
    refine ⟨rfl, ?_⟩
    cases lw with
    | false => exact (Res.ok.inj e).symm
    | true => exact (Res.ok.inj e).symm

theorem getElem?_snoc {α : Type} {l : List α} {a b : α} {i : Nat} (h : (l ++ [a])[i]? = some b) :
    (i < l.length ∧ l[i]? = some b) ∨ (i = l.length ∧ b = a) := by
  by_cases hi : i < l.length
  · rw [List.getElem?_append_left hi] at h; exact Or.inl ⟨hi, h⟩
  · right
    have := (List.getElem?_eq_some_iff.1 h).1
    rw [List.length_append, List.length_singleton] at this
    have hi2 : i = l.length := by omega
    subst hi2
    rw [List.getElem?_append_right (Nat.le_refl _), Nat.sub_self] at h
    exact ⟨rfl, (Option.some.inj h).symm⟩

theorem access_inv {w : EvWorld} (H : EInv w) (o b : Nat) (write : Bool) (seen : Nat → Bool) (h : BufH) (dl : List Nat)
    (h1 : w.tasks o = []) (h2 : w.closed o = false) (h3 : w.honest seen) (h4 : (w.buf b).access write seen (w.deps o) = .ok (h, dl)) :
    EInv { w with buf := updF w.buf b h, deps := updF w.deps o dl, holder := updF w.holder b (some o),
                  hist := updF w.hist b (w.hist b ++ [(o, write)]) } := by
  obtain ⟨hu, hh, hd⟩ := access_ok h4
  have hnone : w.holder b = none := by
    have := H.hold b
    rw [hu] at this
    exact Option.isNone_iff_eq_none.1 this.symm
  have hbufsub : ∀ e, (e ∈ h.readEv → e ∈ (w.buf b).readEv) ∧ (e ∈ h.writeEv → e ∈ (w.buf b).writeEv) := by
    intro e
    rw [hh]
    exact ⟨fun g => (List.mem_filter.1 g).1, fun g => (List.mem_filter.1 g).1⟩
  have hdeps : ∀ B f, f ∈ w.deps B → f ∈ updF w.deps o dl B := by
    intro B f hf
    by_cases hB : B = o
    · subst hB; rw [updF_same, hd]; exact List.mem_append_left _ hf
    · rw [updF_ne _ _ _ hB]; exact hf
  constructor
  · intro b' e he
    simp only at he ⊢
    by_cases hb : b' = b
    · subst hb
      rw [updF_same] at he
      rcases List.mem_append.1 he with g | g
      · exact H.rBuf b' e (List.mem_append_left _ ((hbufsub e).1 g))
      · exact H.rBuf b' e (List.mem_append_right _ ((hbufsub e).2 g))
    · rw [updF_ne _ _ _ hb] at he; exact H.rBuf b' e he
  · intro o' e he
    simp only at he ⊢
    by_cases ho : o' = o
    · subst ho
      rw [updF_same, hd] at he
      rcases List.mem_append.1 he with g | g
      · exact H.rDeps _ e g
      · rcases List.mem_append.1 g with g | g
        · exact H.rBuf b e (List.mem_append_right _ (List.mem_filter.1 g).1)
        · by_cases hw : write = true
          · rw [if_pos hw] at g; exact H.rBuf b e (List.mem_append_left _ (List.mem_filter.1 g).1)
          · rw [if_neg hw] at g; cases g
    · rw [updF_ne _ _ _ ho] at he; exact H.rDeps o' e he
  · exact H.rTasks
  · exact H.rTd
  · exact H.sd
  · exact H.ss
  · intro b'
    simp only
    by_cases hb : b' = b
    · subst hb; rw [updF_same, updF_same, hh]; rfl
    · rw [updF_ne _ _ _ hb, updF_ne _ _ _ hb]; exact H.hold b'
  · intro b' o' hho
    simp only at hho ⊢
    by_cases hb : b' = b
    · subst hb
      rw [updF_same, Option.some.injEq] at hho
      subst hho
      rw [updF_same, updF_same, hh]
      exact ⟨_, rfl⟩
    · rw [updF_ne _ _ _ hb] at hho
      rw [updF_ne _ _ _ hb, updF_ne _ _ _ hb]
      exact H.held b' o' hho
  · intro o' e he
    simp only at he ⊢
    by_cases ho : o' = o
    · subst ho; rw [h1] at he; cases he
    · rw [updF_ne _ _ _ ho]; exact H.tk o' e he
  · intro b' i A wa hi
    simp only at hi ⊢
    by_cases hb : b' = b
    · subst hb
      rw [updF_same] at hi ⊢
      rw [updF_same]
      rcases getElem?_snoc hi with ⟨_, g⟩ | ⟨g1, g2⟩
      · rcases H.past b' i A wa g with q | ⟨q, _⟩
        · exact Or.inl q
        · rw [hnone] at q; cases q
      · right
        rw [Prod.mk.injEq] at g2
        rw [g2.1, List.length_append, List.length_singleton, g1]
        exact ⟨rfl, rfl⟩
    · rw [updF_ne _ _ _ hb] at hi ⊢
      rw [updF_ne _ _ _ hb]
      exact H.past b' i A wa hi
  · intro b' i j A wa B wb hij hi hj hc e he
    simp only at hi hj he ⊢
    have key : Cov w (updF w.deps o dl B) e := by
      by_cases hb : b' = b
      · subst hb
        rw [updF_same] at hi hj
        rcases getElem?_snoc hj with ⟨gj, g⟩ | ⟨g1, g2⟩
        · rcases getElem?_snoc hi with ⟨_, gi⟩ | ⟨gi, _⟩
          · exact (H.conf b' i j A wa B wb hij gi g hc e he).mono (hdeps B)
          · omega
        · rw [Prod.mk.injEq] at g2
          obtain ⟨rfl, rfl⟩ := g2
          rcases getElem?_snoc hi with ⟨_, gi⟩ | ⟨gi, _⟩
          · have hcov := (H.cover b' i A wa gi (Or.inl hnone) e he).filter H h3
            rw [updF_same, hd]
            refine hcov.mono (fun f hf => List.mem_append_right _ ?_)
            rw [List.filter_append] at hf
            rcases List.mem_append.1 hf with q | q
            · exact List.mem_append_left _ q
            · apply List.mem_append_right
              by_cases hw : wa = true
              · rw [if_pos hw] at q; cases q
              · rw [if_neg hw] at q
                rcases hc with hc | hc
                · exact absurd hc hw
                · rw [if_pos hc]; exact q
          · omega
      · rw [updF_ne _ _ _ hb] at hi hj
        exact (H.conf b' i j A wa B wb hij hi hj hc e he).mono (hdeps B)
    exact key
  · intro b' i A wa hi hho e he
    simp only at hi hho he ⊢
    by_cases hb : b' = b
    · subst hb
      rw [updF_same] at hi
      rw [updF_same, updF_same, List.length_append, List.length_singleton] at hho
      rcases hho with hho | hho
      · cases hho
      rcases getElem?_snoc hi with ⟨_, gi⟩ | ⟨gi, _⟩
      · have hcov := (H.cover b' i A wa gi (Or.inl hnone) e he).filter H h3
        have : Cov w ((updF w.buf b' h b').writeEv ++ (if wa = true then [] else (updF w.buf b' h b').readEv)) e := by
          rw [updF_same, hh]
          rw [List.filter_append] at hcov
          refine hcov.mono (fun f hf => ?_)
          rcases List.mem_append.1 hf with q | q
          · exact List.mem_append_left _ q
          · apply List.mem_append_right
            by_cases hw : wa = true
            · rw [if_pos hw] at q; cases q
            · rw [if_neg hw] at q ⊢; exact q
        exact this
      · omega
    · rw [updF_ne _ _ _ hb] at hi
      rw [updF_ne _ _ _ hb, updF_ne _ _ _ hb] at hho
      have := H.cover b' i A wa hi hho e he
      have e2 : updF w.buf b h b' = w.buf b' := updF_ne _ _ _ hb
      rw [e2]
      exact this

theorem waits_upd {w : EvWorld} (H : EInv w) (v : List Nat) {f e : Nat} (h : Waits w.tdeps f e) : Waits (updF w.tdeps w.nextEv v) f e := by
  induction h with
  | refl => exact Waits.refl _
  | step hd _ ih =>
    have := (H.rTd _ _ hd).2
    refine Waits.step ?_ ih
    rw [updF_ne _ _ _ (by omega)]
    exact hd

theorem submit_inv {w : EvWorld} (H : EInv w) (o : Nat) (h2 : w.closed o = false) :
    EInv { w with tasks := updF w.tasks o (w.tasks o ++ [w.nextEv]), tdeps := updF w.tdeps w.nextEv (w.deps o), nextEv := w.nextEv + 1 } := by
  have hcov : ∀ {L : List Nat} {e : Nat}, Cov w L e → Cov { w with tasks := updF w.tasks o (w.tasks o ++ [w.nextEv]), tdeps := updF w.tdeps w.nextEv (w.deps o), nextEv := w.nextEv + 1 } L e := by
    intro L e h
    rcases h with h | ⟨f, h1, h2⟩
    · exact Or.inl h
    · exact Or.inr ⟨f, h1, waits_upd H _ h2⟩
  have hpast : ∀ b (i : Nat) A wa, (w.hist b)[i]? = some (A, wa) → (w.holder b = none ∨ i + 1 < (w.hist b).length) → updF w.tasks o (w.tasks o ++ [w.nextEv]) A = w.tasks A := by
    intro b i A wa hi hh
    apply updF_ne
    rintro rfl
    rcases H.past b i A wa hi with q | ⟨q1, q2⟩
    · rw [h2] at q; cases q
    · rcases hh with hh | hh
      · rw [q1] at hh; cases hh
      · omega
  constructor
  · intro b e he
    have := H.rBuf b e he
    simp only; omega
  · intro o' e he
    have := H.rDeps o' e he
    simp only; omega
  · intro o' e he
    simp only at he ⊢
    by_cases ho : o' = o
    · subst ho
      rw [updF_same] at he
      rcases List.mem_append.1 he with g | g
      · have := H.rTasks _ e g; omega
      · rw [List.mem_singleton] at g; omega
    · rw [updF_ne _ _ _ ho] at he
      have := H.rTasks _ e he; omega
  · intro e d hd
    simp only at hd ⊢
    by_cases he : e = w.nextEv
    · subst he
      rw [updF_same] at hd
      have := H.rDeps o d hd; omega
    · rw [updF_ne _ _ _ he] at hd
      have := H.rTd e d hd; omega
  · exact H.sd
  · intro e he
    obtain ⟨a, b⟩ := H.ss e he
    simp only
    refine ⟨by omega, ?_⟩
    rw [updF_ne _ _ _ (by omega)]; exact b
  · exact H.hold
  · exact H.held
  · intro o' e he
    simp only at he ⊢
    by_cases ho : o' = o
    · subst ho
      rw [updF_same] at he
      rcases List.mem_append.1 he with g | g
      · have := H.rTasks _ e g
        rw [updF_ne _ _ _ (by omega)]; exact H.tk _ e g
      · rw [List.mem_singleton] at g
        subst g; rw [updF_same]
    · rw [updF_ne _ _ _ ho] at he
      have := H.rTasks _ e he
      rw [updF_ne _ _ _ (by omega)]; exact H.tk _ e he
  · exact H.past
  · intro b i j A wa B wb hij hi hj hc e he
    simp only at hi hj he ⊢
    rw [hpast b i A wa hi (Or.inr (by have := (List.getElem?_eq_some_iff.1 hj).1; omega))] at he
    exact hcov (H.conf b i j A wa B wb hij hi hj hc e he)
  · intro b i A wa hi hh e he
    simp only at hi hh he ⊢
    rw [hpast b i A wa hi hh] at he
    exact hcov (H.cover b i A wa hi hh e he)

theorem start_inv {w : EvWorld} (H : EInv w) (e : Nat) (h1 : e < w.nextEv) (h2 : ∀ d ∈ w.tdeps e, w.done d = true) :
    EInv { w with started := updF w.started e true } := by
  constructor
  · exact H.rBuf
  · exact H.rDeps
  · exact H.rTasks
  · exact H.rTd
  · intro x hx
    show updF w.started e true x = true
    by_cases he : x = e
    · subst he; exact updF_same _ _ _
    · rw [updF_ne _ _ _ he]; exact H.sd x hx
  · intro x hx
    simp only at hx
    by_cases he : x = e
    · subst he; exact ⟨h1, h2⟩
    · rw [updF_ne _ _ _ he] at hx; exact H.ss x hx
  · exact H.hold
  · exact H.held
  · exact H.tk
  · exact H.past
  · exact H.conf
  · exact H.cover

theorem finish_inv {w : EvWorld} (H : EInv w) (e : Nat) (h1 : w.started e = true) : EInv { w with done := updF w.done e true } := by
  have hd : ∀ x, w.done x = true → updF w.done e true x = true := by
    intro x hx
    by_cases he : x = e
    · subst he; exact updF_same _ _ _
    · rw [updF_ne _ _ _ he]; exact hx
  have hcov : ∀ {L : List Nat} {x : Nat}, Cov w L x → Cov { w with done := updF w.done e true } L x := by
    intro L x h
    rcases h with h | h
    · exact Or.inl (hd x h)
    · exact Or.inr h
  constructor
  · exact H.rBuf
  · exact H.rDeps
  · exact H.rTasks
  · exact H.rTd
  · intro x hx
    simp only at hx
    by_cases he : x = e
    · subst he; exact h1
    · rw [updF_ne _ _ _ he] at hx; exact H.sd x hx
  · intro x hx
    obtain ⟨a, b⟩ := H.ss x hx
    exact ⟨a, fun d hdm => hd d (b d hdm)⟩
  · exact H.hold
  · exact H.held
  · exact H.tk
  · exact H.past
  · intro b i j A wa B wb hij hi hj hc x hx
    exact hcov (H.conf b i j A wa B wb hij hi hj hc x hx)
  · intro b i A wa hi hh x hx
    exact hcov (H.cover b i A wa hi hh x hx)

theorem complete_inv {w : EvWorld} (H : EInv w) (o b : Nat) (seen : Nat → Bool) (events : List Nat) (h : BufH)
    (h1 : w.holder b = some o) (h2 : w.honest seen) (h3 : ∀ e ∈ events, e < w.nextEv) (h4 : ∀ e ∈ w.tasks o, w.done e = true ∨ e ∈ events)
    (h5 : w.tasks o ≠ [] ∨ ∀ d ∈ w.deps o, w.done d = true) (h6 : (w.buf b).completeState seen events = .ok h) :
    EInv { w with buf := updF w.buf b h, closed := updF w.closed o true, holder := updF w.holder b none } := by
  obtain ⟨_, hh⟩ := complete_ok h6
  obtain ⟨l, hl⟩ := H.held b o h1
  constructor
  · intro b' e he
    simp only at he ⊢
    by_cases hb : b' = b
    · subst hb
      rw [updF_same, hh] at he
      simp only at he
      by_cases hw : (w.buf b').lastW = true
      · rw [if_pos hw, if_pos hw, List.nil_append] at he; exact h3 e he
      · rw [if_neg hw, if_neg hw] at he
        rcases List.mem_append.1 he with g | g
        · rcases List.mem_append.1 g with g | g
          · exact H.rBuf b' e (List.mem_append_left _ (List.mem_filter.1 g).1)
          · exact h3 e g
        · exact H.rBuf b' e (List.mem_append_right _ (List.mem_filter.1 g).1)
    · rw [updF_ne _ _ _ hb] at he; exact H.rBuf b' e he
  · exact H.rDeps
  · exact H.rTasks
  · exact H.rTd
  · exact H.sd
  · exact H.ss
  · intro b'
    simp only
    by_cases hb : b' = b
    · subst hb; rw [updF_same, updF_same, hh]; rfl
    · rw [updF_ne _ _ _ hb, updF_ne _ _ _ hb]; exact H.hold b'
  · intro b' o' hho
    simp only at hho ⊢
    by_cases hb : b' = b
    · subst hb; rw [updF_same] at hho; cases hho
    · rw [updF_ne _ _ _ hb] at hho
      rw [updF_ne _ _ _ hb]; exact H.held b' o' hho
  · exact H.tk
  · intro b' i A wa hi
    simp only at hi ⊢
    have hcl : ∀ A, w.closed A = true → updF w.closed o true A = true := by
      intro A hA
      by_cases ho : A = o
      · subst ho; exact updF_same _ _ _
      · rw [updF_ne _ _ _ ho]; exact hA
    rcases H.past b' i A wa hi with q | ⟨q1, q2⟩
    · exact Or.inl (hcl A q)
    · by_cases hb : b' = b
      · subst hb
        rw [h1, Option.some.injEq] at q1
        subst q1
        exact Or.inl (updF_same _ _ _)
      · rw [updF_ne _ _ _ hb]; exact Or.inr ⟨q1, q2⟩
  · exact H.conf
  · intro b' i A wa hi hho e he
    simp only at hi hho he ⊢
    by_cases hb : b' = b
    · subst hb
      rw [updF_same]
      have key : Cov w (h.writeEv ++ (if wa = true then [] else h.readEv)) e := by
        have hi0 := hi
        rw [hl] at hi
        rcases getElem?_snoc hi with ⟨gi, gi2⟩ | ⟨gi, gi2⟩
        · -- an earlier access
          by_cases hw : (w.buf b').lastW = true
          · have hlast : (w.hist b')[l.length]? = some (o, (w.buf b').lastW) := by
              rw [hl, List.getElem?_append_right (Nat.le_refl _), Nat.sub_self]; rfl
            have hc := H.conf b' i l.length A wa o _ gi hi0 hlast (Or.inr hw) e he
            rw [hh]
            simp only
            rw [if_pos hw, if_pos hw]
            rcases h5 with h5 | h5
            · obtain ⟨g, hg⟩ := List.exists_mem_of_ne_nil _ h5
              rcases h4 g hg with hd | hev
              · left
                rcases hc with hc | ⟨f, f1, f2⟩
                · exact hc
                · refine waits_done H f2 ?_
                  rw [← H.tk o g hg] at f1
                  exact (H.ss g (H.sd g hd)).2 f f1
              · rcases hc with hc | ⟨f, f1, f2⟩
                · exact Or.inl hc
                · right
                  rw [← H.tk o g hg] at f1
                  exact ⟨g, List.mem_append_left _ hev, Waits.step f1 f2⟩
            · left
              rcases hc with hc | ⟨f, f1, f2⟩
              · exact hc
              · exact waits_done H f2 (h5 f f1)
          · have hc := (H.cover b' i A wa hi0 (Or.inr (by rw [hl, List.length_append, List.length_singleton]; omega)) e he).filter H h2
            rw [hh]
            simp only
            rw [if_neg hw, if_neg hw]
            refine hc.mono (fun f hf => ?_)
            rw [List.filter_append] at hf
            rcases List.mem_append.1 hf with q | q
            · exact List.mem_append_left _ q
            · apply List.mem_append_right
              by_cases hwa : wa = true
              · rw [if_pos hwa] at q; cases q
              · rw [if_neg hwa] at q ⊢; exact List.mem_append_left _ q
        · rw [Prod.mk.injEq] at gi2
          obtain ⟨rfl, hwa⟩ := gi2
          rw [hh]
          simp only
          rcases h4 e he with hd | hev
          · exact Or.inl hd
          · right
            refine ⟨e, ?_, Waits.refl e⟩
            by_cases hw : (w.buf b').lastW = true
            · rw [if_pos hw]; exact List.mem_append_left _ hev
            · rw [if_neg hw, if_neg hw, if_neg (by rw [hwa]; exact hw)]
              exact List.mem_append_right _ (List.mem_append_right _ hev)
      exact key
    · have e2 : updF w.buf b h b' = w.buf b' := updF_ne _ _ _ hb
      rw [e2]
      rw [updF_ne _ _ _ hb] at hho
      exact H.cover b' i A wa hi hho e he

theorem waitAll_inv {w : EvWorld} (H : EInv w) (b : Nat) (h : ∀ e ∈ (w.buf b).readEv ++ (w.buf b).writeEv, w.done e = true) :
    EInv { w with buf := updF w.buf b (w.buf b).waitAll } := by
  have hu : ∀ b', (updF w.buf b (w.buf b).waitAll b').upToDate = (w.buf b').upToDate ∧ (updF w.buf b (w.buf b).waitAll b').lastW = (w.buf b').lastW := by
    intro b'
    by_cases hb : b' = b
    · subst hb; rw [updF_same]; exact ⟨rfl, rfl⟩
    · rw [updF_ne _ _ _ hb]; exact ⟨rfl, rfl⟩
  constructor
  · intro b' e he
    simp only at he ⊢
    by_cases hb : b' = b
    · subst hb; rw [updF_same] at he; cases he
    · rw [updF_ne _ _ _ hb] at he; exact H.rBuf b' e he
  · exact H.rDeps
  · exact H.rTasks
  · exact H.rTd
  · exact H.sd
  · exact H.ss
  · intro b'; simp only; rw [(hu b').1]; exact H.hold b'
  · intro b' o' ho; simp only; rw [(hu b').2]; exact H.held b' o' ho
  · exact H.tk
  · exact H.past
  · exact H.conf
  · intro b' i A wa hi hho e he
    have hc := H.cover b' i A wa hi hho e he
    simp only
    by_cases hb : b' = b
    · subst hb
      left
      rcases hc with hc | ⟨f, f1, f2⟩
      · exact hc
      · refine waits_done H f2 (h f ?_)
        rcases List.mem_append.1 f1 with q | q
        · exact List.mem_append_right _ q
        · by_cases hwa : wa = true
          · rw [if_pos hwa] at q; cases q
          · rw [if_neg hwa] at q; exact List.mem_append_left _ q
    · rw [updF_ne _ _ _ hb]; exact hc

theorem EvReach.inv {w : EvWorld} (h : EvReach w) : EInv w := by
  induction h with
  | init j => exact EInv.init j
  | step _ hs ih =>
    cases hs with
    | access o b wr seen h dl h1 h2 h3 h4 => exact access_inv ih o b wr seen h dl h1 h2 h3 h4
    | submit o h => exact submit_inv ih o h
    | start e h1 h2 => exact start_inv ih e h1 h2
    | finish e h => exact finish_inv ih e h
    | complete o b seen ev h h1 h2 h3 h4 h5 h6 => exact complete_inv ih o b seen ev h h1 h2 h3 h4 h5 h6
    | waitAll b h => exact waitAll_inv ih b h

end Shamrock
