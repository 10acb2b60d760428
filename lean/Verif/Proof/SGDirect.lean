import Verif.Proof.SGMain
import Verif.Model.SelfGravDirect
/-! The tiled kernel of `SGDirectPlummer`: invariant of all executions. -/
namespace Shamrock.SelfGrav

open Shamrock Shamrock.Fmm

noncomputable section

section
variable {pos : List (V3 ℝ)} {n : Nat} {P : Nat → V3 ℝ} {G m eps2 : ℝ}

/-- The content of the tile entry for particle `j`. -/
def tileVal (P : Nat → V3 ℝ) (n : Nat) (m : ℝ) (j : Nat) : V3 ℝ × ℝ := if j < n then (P j, m) else (⟨0, 0, 0⟩, 0)

/-- The position an item works with. -/
def myPos (P : Nat → V3 ℝ) (n : Nat) (g : Nat) : V3 ℝ := if g < n then P g else ⟨0, 0, 0⟩

/-- The force after the interactions with the first `c` entries. -/
def forceUpTo (P : Nat → V3 ℝ) (n : Nat) (m eps2 : ℝ) (g c : Nat) : Option (V3 ℝ) :=
  (List.range c).foldl (fun f j => if g = j then f else addTerm eps2 (tileVal P n m j).2 (myPos P n g) (tileVal P n m j).1 f)
    (some ⟨0, 0, 0⟩)

theorem forceUpTo_succ (g c : Nat) : forceUpTo P n m eps2 g (c + 1) =
    if g = c then forceUpTo P n m eps2 g c else addTerm eps2 (tileVal P n m c).2 (myPos P n g) (tileVal P n m c).1 (forceUpTo P n m eps2 g c) := by
  unfold forceUpTo
  rw [List.range_succ, List.foldl_append]
  rfl

/-- The number of interactions done before statement `pc`. -/
def numAcc (pc : Nat) : Nat := 32 * (pc / 35) + min (pc % 35 - 2) 32

structure DirInv (P : Nat → V3 ℝ) (n : Nat) (G m eps2 : ℝ) (N : Nat) (old : Nat → Option (V3 ℝ)) (s : DirState) : Prop where
  il : s.items.length = 32 * N
  sl : s.scratch.length = 32 * N
  al : s.acc.length = n
  item : ∀ (g : Nat) (it : DirItem), s.items[g]? = some it → it.pc ≤ 35 * N + 1 ∧ it.force = forceUpTo P n m eps2 g (numAcc (min it.pc (35 * N)))
  scr : ∀ (g : Nat) (it : DirItem), s.items[g]? = some it → ∀ k < N, 35 * k < it.pc → it.pc ≤ 35 * (k + 1) → s.scratch[g]? = some (tileVal P n m (32 * k + g % 32))
  bar : ∀ (g : Nat) (it : DirItem) (g' : Nat) (it' : DirItem), s.items[g]? = some it → s.items[g']? = some it' → g / 32 = g' / 32 → ∀ k < N,
    (35 * k + 1 < it.pc → 35 * k + 1 ≤ it'.pc) ∧ (35 * k + 34 < it.pc → 35 * k + 34 ≤ it'.pc)
  acc : ∀ (g : Nat) (it : DirItem), g < n → s.items[g]? = some it → s.acc[g]? = some (if it.pc = 35 * N + 1 then
    addForce G (old g) (forceUpTo P n m eps2 g (32 * N)) else old g)

theorem DirInv.advance {N : Nat} {old : Nat → Option (V3 ℝ)} {s : DirState} (I : DirInv P n G m eps2 N old s) {g : Nat} {it : DirItem}
    (hg : s.items[g]? = some it) (f : Option (V3 ℝ)) (sc : List (V3 ℝ × ℝ)) (ac : List (Option (V3 ℝ)))
    (h1 : it.pc + 1 ≤ 35 * N + 1) (h2 : f = forceUpTo P n m eps2 g (numAcc (min (it.pc + 1) (35 * N))))
    (h3 : sc.length = 32 * N) (h4 : ∀ g', g' ≠ g → sc[g']? = s.scratch[g']?)
    (h5 : ∀ k < N, 35 * k < it.pc + 1 → it.pc + 1 ≤ 35 * (k + 1) → sc[g]? = some (tileVal P n m (32 * k + g % 32)))
    (h6 : ∀ k < N, it.pc = 35 * k + 1 ∨ it.pc = 35 * k + 34 → ∀ (g' : Nat) (o : DirItem), s.items[g']? = some o → g' / 32 = g / 32 → it.pc ≤ o.pc)
    (h7 : ac.length = n) (h8 : ∀ g', g' ≠ g → ac[g']? = s.acc[g']?)
    (h9 : g < n → ac[g]? = some (if it.pc + 1 = 35 * N + 1 then addForce G (old g) (forceUpTo P n m eps2 g (32 * N)) else old g)) :
    DirInv P n G m eps2 N old ⟨s.items.set g ⟨it.pc + 1, f⟩, sc, ac⟩ := by
  have hgl : g < s.items.length := (List.getElem?_eq_some_iff.1 hg).1
  have hget : ∀ g' o, (s.items.set g ⟨it.pc + 1, f⟩)[g']? = some o → (g' = g ∧ o = ⟨it.pc + 1, f⟩) ∨ (g' ≠ g ∧ s.items[g']? = some o) := by
    intro g' o ho
    by_cases h : g' = g
    · subst h
      rw [List.getElem?_set_self hgl, Option.some.injEq] at ho
      exact Or.inl ⟨rfl, ho.symm⟩
    · rw [List.getElem?_set_ne (Ne.symm h)] at ho
      exact Or.inr ⟨h, ho⟩
  refine ⟨?_, h3, h7, ?_, ?_, ?_, ?_⟩
  · show (s.items.set g _).length = _
    rw [List.length_set]; exact I.il
  · intro g' o ho
    rcases hget g' o ho with ⟨rfl, rfl⟩ | ⟨_, ho⟩
    · exact ⟨h1, h2⟩
    · exact I.item g' o ho
  · intro g' o ho k hk q1 q2
    rcases hget g' o ho with ⟨rfl, rfl⟩ | ⟨hne, ho⟩
    · exact h5 k hk q1 q2
    · show sc[g']? = _
      rw [h4 g' hne]
      exact I.scr g' o ho k hk q1 q2
  · intro a ia b ib ha hb hab k hk
    rcases hget a ia ha with ⟨rfl, rfl⟩ | ⟨hna, ha2⟩
    · rcases hget b ib hb with ⟨rfl, rfl⟩ | ⟨hnb, hb⟩
      · exact ⟨fun h => by omega, fun h => by omega⟩
      · have := I.bar a it b ib hg hb hab k hk
        have h6' := h6 k hk
        constructor
        · intro q
          by_cases e : it.pc = 35 * k + 1
          · have := h6' (Or.inl e) b ib hb hab.symm
            omega
          · exact this.1 (by show 35 * k + 1 < it.pc; have : 35 * k + 1 < it.pc + 1 := q; omega)
        · intro q
          by_cases e : it.pc = 35 * k + 34
          · have := h6' (Or.inr e) b ib hb hab.symm
            omega
          · exact this.2 (by have : 35 * k + 34 < it.pc + 1 := q; omega)
    · rcases hget b ib hb with ⟨rfl, rfl⟩ | ⟨hnb, hb⟩
      · have := I.bar a ia b it ha2 hg hab k hk
        exact ⟨fun q => Nat.le_succ_of_le (this.1 q), fun q => Nat.le_succ_of_le (this.2 q)⟩
      · exact I.bar a ia b ib ha2 hb hab k hk
  · intro g' o hn ho
    rcases hget g' o ho with ⟨rfl, rfl⟩ | ⟨hne, ho⟩
    · exact h9 hn
    · show ac[g']? = _
      rw [h8 g' hne]
      exact I.acc g' o hn ho

theorem allReached_iff {N : Nat} (s : DirState) (hl : s.items.length = 32 * N) (g pc : Nat) : allReached s (g / 32) pc = true ↔
    ∀ (g' : Nat) (o : DirItem), s.items[g']? = some o → g' / 32 = g / 32 → pc ≤ o.pc := by
  unfold allReached
  rw [List.all_eq_true]
  constructor
  · intro h g' o ho hgg
    have := h (g' % 32) (List.mem_range.2 (by omega))
    rw [show 32 * (g / 32) + g' % 32 = g' by omega, ho] at this
    simpa using this
  · intro h l hl
    rw [List.mem_range] at hl
    cases ho : s.items[32 * (g / 32) + l]? with
    | none => rfl
    | some o =>
      have := h _ o ho (by omega)
      simpa using this

/-- One statement: no access out of bounds, the invariant is kept, and the item advances unless it is done or waits at a barrier. -/
theorem dStep_ok {N : Nat} {old : Nat → Option (V3 ℝ)} (hpos : ∀ i < n, pos[i]? = some (P i)) (hN : N = (n + 31) / 32)
    {s : DirState} (I : DirInv P n G m eps2 N old s) {g : Nat} (hg : g < 32 * N) :
    ∃ s', dStep pos n G m eps2 s g = some s' ∧ DirInv P n G m eps2 N old s' ∧
      (s' = s ∨ ∃ (it : DirItem) (f : Option (V3 ℝ)), s.items[g]? = some it ∧ s'.items = s.items.set g ⟨it.pc + 1, f⟩ ∧ it.pc ≤ 35 * N) ∧
      ∀ it : DirItem, s.items[g]? = some it → it.pc ≤ 35 * N → (∀ (g' : Nat) (o : DirItem), s.items[g']? = some o → it.pc ≤ o.pc) →
        ∃ f, s'.items = s.items.set g ⟨it.pc + 1, f⟩ := by
  obtain ⟨it, hit⟩ : ∃ it, s.items[g]? = some it := ⟨_, List.getElem?_eq_getElem (by rw [I.il]; exact hg)⟩
  obtain ⟨hpc, hf⟩ := I.item g it hit
  have hgs : g < s.scratch.length := by rw [I.sl]; exact hg
  obtain ⟨k, hk⟩ : ∃ k, k = it.pc / 35 := ⟨_, rfl⟩
  obtain ⟨r, hr⟩ : ∃ r, r = it.pc % 35 := ⟨_, rfl⟩
  have hpk : it.pc = 35 * k + r := by omega
  have hr35 : r < 35 := by omega
  have haccold : ∀ h : g < n, it.pc ≠ 35 * N + 1 → s.acc[g]? = some (old g) := by
    intro h h'
    rw [I.acc g it h hit, if_neg h']
  unfold dStep
  simp only [hit, Option.bind_eq_bind, Option.bind_some, ← hk, ← hr]
  by_cases hkn : 32 * k < n
  · rw [if_pos hkn]
    have hkN : k < N := by omega
    have hm1 : min it.pc (35 * N) = it.pc := by omega
    have hm2 : min (it.pc + 1) (35 * N) = it.pc + 1 := by omega
    have hold : ∀ h : g < n, s.acc[g]? = some (if it.pc + 1 = 35 * N + 1 then addForce G (old g) (forceUpTo P n m eps2 g (32 * N)) else old g) := by
      intro h
      rw [haccold h (by omega), if_neg (by omega)]
    rw [hm1] at hf
    by_cases r0 : r = 0
    · rw [if_pos r0]
      have he : tileEntry pos n m (32 * k + g % 32) = some (tileVal P n m (32 * k + g % 32)) := by
        unfold tileEntry tileVal
        by_cases h : 32 * k + g % 32 < n
        · rw [if_pos h, if_pos h, hpos _ h]; rfl
        · rw [if_neg h, if_neg h]
      have hw : wr s.scratch g (tileVal P n m (32 * k + g % 32)) = some (s.scratch.set g (tileVal P n m (32 * k + g % 32))) := if_pos hgs
      rw [he]
      simp only [Option.bind_some, hw, Option.pure_def]
      refine ⟨_, rfl, ?_, Or.inr ⟨it, it.force, rfl, rfl, by omega⟩, fun it' h _ _ => ⟨it.force, by
        rw [Option.some.injEq] at h; rw [h]⟩⟩
      refine I.advance hit _ _ _ (by omega) ?_ (by rw [List.length_set]; exact I.sl) (fun g' h => List.getElem?_set_ne (Ne.symm h)) ?_ ?_ I.al
        (fun _ _ => rfl) hold
      · rw [hf, hm2]
        congr 1
        unfold numAcc; omega
      · intro k' _ q1 q2
        rw [List.getElem?_set_self hgs, show k' = k by omega]
      · intro k' _ h; omega
    · rw [if_neg r0]
      have hscr : ∀ k' < N, 35 * k' < it.pc + 1 → it.pc + 1 ≤ 35 * (k' + 1) → s.scratch[g]? = some (tileVal P n m (32 * k' + g % 32)) := by
        intro k' hk' q1 q2
        exact I.scr g it hit k' hk' (by omega) (by omega)
      by_cases rb : r = 1 ∨ r = 34
      · rw [if_pos rb]
        by_cases hall : allReached s (g / 32) it.pc = true
        · rw [if_pos hall]
          refine ⟨_, rfl, ?_, Or.inr ⟨it, it.force, rfl, rfl, by omega⟩, fun it' h _ _ => ⟨it.force, by
            rw [Option.some.injEq] at h; rw [h]⟩⟩
          refine I.advance hit _ _ _ (by omega) ?_ I.sl (fun _ _ => rfl) hscr ?_ I.al (fun _ _ => rfl) hold
          · rw [hf, hm2]
            congr 1
            unfold numAcc; omega
          · intro k' _ _
            exact (allReached_iff s I.il g it.pc).1 hall
        · rw [if_neg hall]
          refine ⟨s, rfl, I, Or.inl rfl, ?_⟩
          intro it' h _ hmin
          rw [Option.some.injEq] at h
          exact absurd ((allReached_iff s I.il g it.pc).2 fun g' o ho _ => by rw [h]; exact hmin g' o ho) hall
      · rw [if_neg rb]
        have hme : itemPos pos n g = some (myPos P n g) := by
          unfold itemPos myPos
          by_cases h : g < n
          · rw [if_pos h, if_pos h, hpos g h]
          · rw [if_neg h, if_neg h]
        have halt : 32 * (g / 32) + (r - 2) < 32 * N := by omega
        obtain ⟨o, ho⟩ : ∃ o, s.items[32 * (g / 32) + (r - 2)]? = some o := ⟨_, List.getElem?_eq_getElem (by rw [I.il]; exact halt)⟩
        have hb1 := (I.bar g it _ o hit ho (by omega) k hkN).1 (by omega)
        have hb2 := (I.bar _ o g it ho hit (by omega) k hkN).2
        have hsc := I.scr _ o ho k hkN (by omega) (by
          by_contra hc
          have := hb2 (by omega)
          omega)
        rw [show 32 * k + (32 * (g / 32) + (r - 2)) % 32 = 32 * k + (r - 2) by omega] at hsc
        simp only [hme, hsc, Option.bind_some, Option.pure_def]
        refine ⟨_, rfl, ?_, Or.inr ⟨it, _, rfl, rfl, by omega⟩, ?_⟩
        rotate_left
        · intro it' h _ _
          rw [Option.some.injEq] at h
          subst h
          exact ⟨_, rfl⟩
        refine I.advance hit _ _ _ (by omega) ?_ I.sl (fun _ _ => rfl) hscr ?_ I.al (fun _ _ => rfl) hold
        · have e1 : numAcc (min (it.pc + 1) (35 * N)) = (32 * k + (r - 2)) + 1 := by
            rw [hm2]; unfold numAcc; omega
          have e2 : numAcc it.pc = 32 * k + (r - 2) := by unfold numAcc; omega
          rw [e1, forceUpTo_succ, hf, e2]
        · intro k' _ h; omega
  · rw [if_neg hkn]
    have hkN : N ≤ k := by omega
    by_cases r0 : r = 0
    · rw [if_pos r0]
      have hpcN : it.pc = 35 * N := by omega
      have hf' : it.force = forceUpTo P n m eps2 g (32 * N) := by
        rw [hf, hpcN]
        congr 1
        unfold numAcc; omega
      have hfn : it.force = forceUpTo P n m eps2 g (numAcc (min (it.pc + 1) (35 * N))) := by
        rw [hf, hpcN]
        congr 2
        omega
      by_cases hgn : g < n
      · rw [if_pos hgn]
        have hw : wr s.acc g (addForce G (old g) it.force) = some (s.acc.set g (addForce G (old g) it.force)) :=
          if_pos (by rw [I.al]; exact hgn)
        simp only [haccold hgn (by omega), Option.bind_some, hw, Option.pure_def]
        refine ⟨_, rfl, ?_, Or.inr ⟨it, it.force, rfl, rfl, by omega⟩, fun it' h _ _ => ⟨it.force, by
          rw [Option.some.injEq] at h; rw [h]⟩⟩
        refine I.advance hit _ _ _ (by omega) hfn I.sl (fun _ _ => rfl) ?_ ?_ (by rw [List.length_set]; exact I.al)
          (fun g' h => List.getElem?_set_ne (Ne.symm h)) ?_
        · intro k' hk' q1 q2; omega
        · intro k' hk' h; omega
        · intro _
          rw [List.getElem?_set_self (by rw [I.al]; exact hgn), if_pos (by omega), hf']
      · rw [if_neg hgn]
        refine ⟨_, rfl, ?_, Or.inr ⟨it, it.force, rfl, rfl, by omega⟩, fun it' h _ _ => ⟨it.force, by
          rw [Option.some.injEq] at h; rw [h]⟩⟩
        refine I.advance hit _ _ _ (by omega) hfn I.sl (fun _ _ => rfl) ?_ ?_ I.al (fun _ _ => rfl) (fun h => absurd h hgn)
        · intro k' hk' q1 q2; omega
        · intro k' hk' h; omega
    · rw [if_neg r0]
      refine ⟨s, rfl, I, Or.inl rfl, ?_⟩
      intro it' h hle _
      rw [Option.some.injEq] at h
      rw [← h] at hle
      omega

theorem dStart_ok (N : Nat) (hN : N = (n + 31) / 32) (hn : groupCount n = N) (scratch : List (V3 ℝ × ℝ)) (hs : scratch.length = 32 * N)
    (acc : List (Option (V3 ℝ))) (hacc : acc.length = n) :
    DirInv P n G m eps2 N (fun i => acc[i]?.getD none) (dStart n scratch acc) := by
  have hg : ∀ (g : Nat) (it : DirItem), (dStart n scratch acc).items[g]? = some it → it = ⟨0, some ⟨0, 0, 0⟩⟩ := by
    intro g it h
    exact List.eq_of_mem_replicate (List.mem_of_getElem? h)
  refine @DirInv.mk _ _ _ _ _ _ _ _ ?_ hs hacc ?_ ?_ ?_ ?_
  · show (List.replicate (32 * groupCount n) _).length = _
    rw [List.length_replicate, hn]
  · intro g it h
    rw [hg g it h]
    refine ⟨Nat.zero_le _, ?_⟩
    show some (⟨0, 0, 0⟩ : V3 ℝ) = forceUpTo P n m eps2 g (numAcc (min 0 (35 * N)))
    rw [Nat.zero_min]
    rfl
  · intro g it h k _ q _
    rw [hg g it h] at q
    exact absurd q (Nat.not_lt_zero _)
  · intro g it g' it' h _ _ k _
    rw [hg g it h]
    exact ⟨fun q => absurd q (Nat.not_lt_zero _), fun q => absurd q (Nat.not_lt_zero _)⟩
  · intro g it hgn h
    rw [hg g it h, if_neg (by show ¬ 0 = 35 * N + 1; omega)]
    show acc[g]? = _
    rw [List.getElem?_eq_getElem (by omega)]
    rfl

theorem dRun_ok {N : Nat} {old : Nat → Option (V3 ℝ)} (hpos : ∀ i < n, pos[i]? = some (P i)) (hN : N = (n + 31) / 32) :
    ∀ (sched : List Nat), (∀ g ∈ sched, g < 32 * N) → ∀ s, DirInv P n G m eps2 N old s →
      ∃ s', sched.foldlM (dStep pos n G m eps2) s = some s' ∧ DirInv P n G m eps2 N old s' := by
  intro sched
  induction sched with
  | nil => intro _ s I; exact ⟨s, rfl, I⟩
  | cons g sched ih =>
    intro hs s I
    obtain ⟨s1, h1, h2, _⟩ := dStep_ok hpos hN I (hs g (by simp))
    obtain ⟨s2, h3, h4⟩ := ih (fun x hx => hs x (by simp [hx])) s1 h2
    exact ⟨s2, by rw [List.foldlM_cons, h1]; exact h3, h4⟩

theorem sum_set_lt : ∀ (l : List Nat) (i v x : Nat), l[i]? = some x → (l.set i v).sum + x = l.sum + v := by
  intro l
  induction l with
  | nil => intro i v x h; simp at h
  | cons a l ih =>
    intro i v x h
    cases i with
    | zero =>
      rw [List.getElem?_cons_zero, Option.some.injEq] at h
      rw [List.set_cons_zero, List.sum_cons, List.sum_cons, h]; omega
    | succ i =>
      rw [List.getElem?_cons_succ] at h
      rw [List.set_cons_succ, List.sum_cons, List.sum_cons]
      have := ih i v x h
      omega

/-- The statements that remain. -/
def remaining (N : Nat) (s : DirState) : Nat := (s.items.map fun it => 35 * N + 1 - it.pc).sum

/-- From every state an execution to the end exists. -/
theorem finish_ok {N : Nat} {old : Nat → Option (V3 ℝ)} (hpos : ∀ i < n, pos[i]? = some (P i)) (hN : N = (n + 31) / 32) :
    ∀ (b : Nat) (s : DirState), remaining N s ≤ b → DirInv P n G m eps2 N old s →
      ∃ (sched : List Nat) (s' : DirState), (∀ g ∈ sched, g < 32 * N) ∧ sched.foldlM (dStep pos n G m eps2) s = some s' ∧ DirInv P n G m eps2 N old s' ∧
        ∀ it ∈ s'.items, it.pc = 35 * N + 1 := by
  intro b
  induction b with
  | zero =>
    intro s hb I
    refine ⟨[], s, by simp, rfl, I, ?_⟩
    intro it hit
    obtain ⟨g, hg⟩ := List.mem_iff_getElem?.1 hit
    have h1 := (I.item g it hg).1
    have h2 : 35 * N + 1 - it.pc ≤ 0 := le_trans (List.single_le_sum (by simp) _ (List.mem_map.2 ⟨it, hit, rfl⟩)) hb
    omega
  | succ b ih =>
    intro s hb I
    by_cases hall : ∀ it ∈ s.items, it.pc = 35 * N + 1
    · exact ⟨[], s, by simp, rfl, I, hall⟩
    · simp only [not_forall] at hall
      obtain ⟨it0, hmem, hne⟩ := hall
      have hexmin : ∃ it ∈ s.items, ∀ o ∈ s.items, it.pc ≤ o.pc := by
        clear ih hb I hne
        revert hmem
        generalize s.items = l
        intro hmem
        have hl : l ≠ [] := List.ne_nil_of_mem hmem
        clear hmem
        induction l with
        | nil => exact absurd rfl hl
        | cons a l ih =>
          by_cases h : l = []
          · subst h
            exact ⟨a, by simp, by simp⟩
          · obtain ⟨x, hx, hxm⟩ := ih h
            by_cases hax : a.pc ≤ x.pc
            · refine ⟨a, by simp, ?_⟩
              intro o ho
              rcases List.mem_cons.1 ho with rfl | ho
              · exact le_refl _
              · exact le_trans hax (hxm o ho)
            · refine ⟨x, by simp [hx], ?_⟩
              intro o ho
              rcases List.mem_cons.1 ho with rfl | ho
              · omega
              · exact hxm o ho
      obtain ⟨it, hitm, hmin⟩ := hexmin
      obtain ⟨g, hg⟩ := List.mem_iff_getElem?.1 hitm
      have hgl : g < 32 * N := by rw [← I.il]; exact (List.getElem?_eq_some_iff.1 hg).1
      have hle : it.pc ≤ 35 * N := by
        obtain ⟨g0, hg0⟩ := List.mem_iff_getElem?.1 hmem
        have := (I.item g0 it0 hg0).1
        have := hmin it0 hmem
        omega
      obtain ⟨s1, h1, h2, _, h3⟩ := dStep_ok hpos hN I hgl
      obtain ⟨f, hf⟩ := h3 it hg hle (fun g' o ho => hmin o (List.mem_of_getElem? ho))
      have hrem : remaining N s1 ≤ b := by
        unfold remaining at hb ⊢
        rw [hf, List.map_set]
        have := sum_set_lt (s.items.map fun it => 35 * N + 1 - it.pc) g (35 * N + 1 - (it.pc + 1)) (35 * N + 1 - it.pc)
          (by rw [List.getElem?_map, hg]; rfl)
        show ((s.items.map fun it => 35 * N + 1 - it.pc).set g (35 * N + 1 - (it.pc + 1))).sum ≤ b
        omega
      obtain ⟨sched, s', q1, q2, q3, q4⟩ := ih s1 hrem h2
      refine ⟨g :: sched, s', ?_, by rw [List.foldlM_cons, h1]; exact q2, q3, q4⟩
      intro x hx
      rcases List.mem_cons.1 hx with rfl | hx
      · exact hgl
      · exact q1 x hx

end

end

end Shamrock.SelfGrav
