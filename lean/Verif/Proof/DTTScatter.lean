import Verif.Model.DTT
import Verif.Props.Scan
import Verif.Props.Sort
/-! Compaction of the per item runs, and the ordering of the interaction lists. -/
namespace Shamrock

/-- Start of run `i` in the concatenation. -/
def runOff {α : Type} (runs : List (List α)) (i : Nat) : Nat := (runs.take i).flatten.length

section
variable {α : Type}

theorem storeRun_ok : ∀ (run : List α) (buf : List α) (o : Nat), o + run.length ≤ buf.length →
    ∃ b, storeRun buf o run = some b ∧ b.length = buf.length ∧
      ∀ j : Nat, b[j]? = if o ≤ j ∧ j < o + run.length then run[j - o]? else buf[j]? := by
  intro run
  induction run with
  | nil =>
    intro buf o _
    refine ⟨buf, rfl, rfl, ?_⟩
    intro j
    rw [if_neg (by rw [List.length_nil]; omega)]
  | cons x r ih =>
    intro buf o h
    rw [List.length_cons] at h
    obtain ⟨b, h1, h2, h3⟩ := ih (buf.set o x) (o + 1) (by rw [List.length_set]; omega)
    refine ⟨b, ?_, by rw [h2, List.length_set], ?_⟩
    · unfold storeRun wr
      rw [if_pos (by omega)]; exact h1
    · intro j
      rw [h3 j, List.length_cons]
      by_cases h4 : o + 1 ≤ j ∧ j < o + 1 + r.length
      · rw [if_pos h4, if_pos (by omega), show j - o = (j - (o + 1)) + 1 by omega, List.getElem?_cons_succ]
      · rw [if_neg h4]
        by_cases h5 : j = o
        · subst h5
          rw [if_pos (by omega), List.getElem?_set_self (by omega), Nat.sub_self]; rfl
        · rw [if_neg (by omega), List.getElem?_set_ne (by omega)]

theorem flatten_split (runs : List (List α)) (i : Nat) (r : List α) (hr : runs[i]? = some r) :
    runs.flatten = (runs.take i).flatten ++ (r ++ (runs.drop (i + 1)).flatten) := by
  have hi : i < runs.length := (List.getElem?_eq_some_iff.1 hr).1
  have he : runs[i] = r := (List.getElem?_eq_some_iff.1 hr).2
  conv_lhs => rw [← List.take_append_drop i runs, List.drop_eq_getElem_cons hi]
  simp [he]

theorem dtt_flatten_get (runs : List (List α)) (i j : Nat) (r : List α) (hr : runs[i]? = some r) (hj : j < r.length) :
    runs.flatten[runOff runs i + j]? = r[j]? := by
  rw [flatten_split runs i r hr, runOff, List.getElem?_append_right (by omega), Nat.add_sub_cancel_left, List.getElem?_append_left hj]

theorem runOff_end (runs : List (List α)) (i : Nat) (r : List α) (hr : runs[i]? = some r) : runOff runs (i + 1) = runOff runs i + r.length := by
  have hi : i < runs.length := (List.getElem?_eq_some_iff.1 hr).1
  have he : runs[i] = r := (List.getElem?_eq_some_iff.1 hr).2
  unfold runOff
  rw [List.take_succ_eq_append_getElem hi, List.flatten_append, List.length_append, he]; simp

theorem runOff_mono (runs : List (List α)) {i k : Nat} (h : i ≤ k) : runOff runs i ≤ runOff runs k := by
  obtain ⟨d, rfl⟩ := Nat.le.dest h
  unfold runOff
  rw [List.take_add]; simp

theorem runOff_total (runs : List (List α)) : runOff runs runs.length = runs.flatten.length := by unfold runOff; rw [List.take_length]

theorem runOff_le (runs : List (List α)) (i : Nat) : runOff runs i ≤ runs.flatten.length := by
  rw [← runOff_total]
  rcases Nat.le_total i runs.length with h | h
  · exact runOff_mono runs h
  · unfold runOff; rw [List.take_of_length_le h, List.take_length]

theorem flatten_pos : ∀ (runs : List (List α)) (p : Nat), p < runs.flatten.length →
    ∃ i r j, runs[i]? = some r ∧ j < r.length ∧ p = runOff runs i + j := by
  intro runs
  induction runs with
  | nil => intro p h; simp at h
  | cons a l ih =>
    intro p h
    by_cases hp : p < a.length
    · exact ⟨0, a, p, rfl, hp, by simp [runOff]⟩
    · obtain ⟨i, r, j, h1, h2, h3⟩ := ih (p - a.length) (by simp at h ⊢; omega)
      refine ⟨i + 1, r, j, by simpa using h1, h2, ?_⟩
      unfold runOff at h3 ⊢
      rw [List.take_succ_cons, List.flatten_cons, List.length_append]; omega

theorem scatterRuns_ok (runs : List (List α)) (offs : List W32)
    (hoffs : ∀ i < runs.length, ∃ o, offs[i]? = some o ∧ o.toNat = runOff runs i) :
    ∀ (order : List Nat) (buf : List α), order.Nodup → (∀ i ∈ order, i < runs.length) → buf.length = runs.flatten.length →
      ∃ b, scatterRuns offs runs order buf = some b ∧ b.length = buf.length ∧
        (∀ i ∈ order, ∀ r, runs[i]? = some r → ∀ j < r.length, b[runOff runs i + j]? = r[j]?) ∧
        (∀ p : Nat, (∀ i ∈ order, ¬ (runOff runs i ≤ p ∧ p < runOff runs (i + 1))) → b[p]? = buf[p]?) := by
  intro order
  induction order with
  | nil => intro buf _ _ _; exact ⟨buf, rfl, rfl, by simp, fun _ _ => rfl⟩
  | cons i order ih =>
    intro buf hnd hlt hlen
    rw [List.nodup_cons] at hnd
    have hi := hlt i (by simp)
    obtain ⟨o, ho, hon⟩ := hoffs i hi
    have hr : runs[i]? = some runs[i] := List.getElem?_eq_getElem hi
    have hend := runOff_end runs i _ hr
    have hle := runOff_le runs (i + 1)
    obtain ⟨b1, e1, l1, g1⟩ := storeRun_ok runs[i] buf o.toNat (by omega)
    obtain ⟨b, e2, l2, g2, g3⟩ := ih b1 hnd.2 (fun k hk => hlt k (by simp [hk])) (by omega)
    refine ⟨b, ?_, by omega, ?_, ?_⟩
    · unfold scatterRuns at e2 ⊢
      rw [List.foldlM_cons, ho, hr]
      simp only [Option.bind_eq_bind, Option.bind_some, e1]
      exact e2
    · intro k hk r hrk j hj
      rcases List.mem_cons.1 hk with rfl | hk
      · rw [hr] at hrk
        have hrk := Option.some.inj hrk
        subst hrk
        rw [g3, g1, hon, if_pos (by omega), Nat.add_sub_cancel_left]
        intro k' hk' ⟨c1, c2⟩
        have hne : k' ≠ k := fun h => hnd.1 (h ▸ hk')
        rcases Nat.lt_or_gt_of_ne hne with hlt' | hlt'
        · have := runOff_mono runs (show k' + 1 ≤ k by omega); omega
        · have := runOff_mono runs (show k + 1 ≤ k' by omega); omega
      · exact g2 k hk r hrk j hj
    · intro p hp
      rw [g3 p (fun k hk => hp k (by simp [hk])), g1, hon, if_neg]
      have := hp i (by simp)
      omega

theorem exclSpec_runs (runs : List (List α)) (extra : List W32) : ∀ i, i ≤ runs.length →
    exclSpec (runs.map (fun r => BitVec.ofNat 32 r.length) ++ extra) i = BitVec.ofNat 32 (runOff runs i) := by
  intro i
  induction i with
  | zero => intro _; rw [exclSpec_zero]; simp [runOff]
  | succ i ih =>
    intro hi
    have hr : runs[i]? = some runs[i] := List.getElem?_eq_getElem (by omega)
    rw [exclSpec_succ _ i (BitVec.ofNat 32 runs[i].length) (by rw [List.getElem?_append_left (by simp; omega), List.getElem?_map, hr]; rfl),
      ih (by omega), runOff_end runs i _ hr, BitVec.ofNat_add]

/-- Counts, scan and fill concatenate the runs, whatever the order of execution. -/
theorem compactRuns_ok (junk : Nat → α) (order : List Nat) (runs : List (List α)) (hord : order.Perm (List.range runs.length))
    (hlt : runs.flatten.length < 2 ^ 32) : ∃ scan, compactRuns junk order runs = some (runs.flatten, scan) ∧
      scan.length = runs.length + 1 ∧ ∀ i ≤ runs.length, ∃ v, scan[i]? = some v ∧ v.toNat = runOff runs i := by
  obtain ⟨f1, f2⟩ := C14_fallback (runs.map (fun r => BitVec.ofNat 32 r.length) ++ [0])
  rw [List.length_append, List.length_map, List.length_singleton] at f1
  have hg : ∀ i ≤ runs.length, ∃ v, (exclSumFallback (runs.map (fun r => BitVec.ofNat 32 r.length) ++ [0]))[i]? = some v ∧
      v.toNat = runOff runs i := by
    intro i hi
    refine ⟨_, f2 i (by simp; omega), ?_⟩
    rw [exclSpec_runs runs [0] i hi, BitVec.toNat_ofNat, Nat.mod_eq_of_lt]
    have := runOff_le runs i
    omega
  refine ⟨_, ?_, f1, hg⟩
  unfold compactRuns
  obtain ⟨v, hv, hvn⟩ := hg runs.length (Nat.le_refl _)
  rw [runOff_total] at hvn
  simp only [hv, Option.bind_eq_bind, Option.bind_some, hvn]
  obtain ⟨b, e, l, g, _⟩ := scatterRuns_ok runs _ (fun i hi => hg i (by omega)) order ((List.range runs.flatten.length).map junk)
    (hord.nodup_iff.2 List.nodup_range) (fun i hi => List.mem_range.1 (hord.mem_iff.1 hi)) (by simp)
  rw [e, Option.bind_some]
  have : b = runs.flatten := by
    apply List.ext_getElem?
    intro p
    by_cases hp : p < runs.flatten.length
    · obtain ⟨i, r, j, h1, h2, rfl⟩ := flatten_pos runs p hp
      rw [g i (hord.mem_iff.2 (List.mem_range.2 (List.getElem?_eq_some_iff.1 h1).1)) r h1 j h2, dtt_flatten_get runs i j r h1 h2]
    · rw [List.getElem?_eq_none (by rw [l]; simp at hp ⊢; omega), List.getElem?_eq_none (by omega)]
  rw [this]; rfl

/-- Equality of a buffer with the concatenation, from its entries. -/
theorem eq_flatten (runs : List (List α)) (b : List α) (hl : b.length = runs.flatten.length)
    (h : ∀ i r, runs[i]? = some r → ∀ j < r.length, b[runOff runs i + j]? = r[j]?) : b = runs.flatten := by
  apply List.ext_getElem?
  intro p
  by_cases hp : p < runs.flatten.length
  · obtain ⟨i, r, j, h1, h2, rfl⟩ := flatten_pos runs p hp
    rw [h i r h1 j h2, dtt_flatten_get runs i j r h1 h2]
  · rw [List.getElem?_eq_none (by omega), List.getElem?_eq_none (by omega)]

theorem seg_flatten (runs : List (List α)) (i : Nat) (r : List α) (hr : runs[i]? = some r) :
    seg runs.flatten (runOff runs i) (runOff runs (i + 1)) = r := by
  rw [runOff_end runs i r hr, seg, Nat.add_sub_cancel_left]
  conv_lhs => rw [flatten_split runs i r hr]
  unfold runOff
  rw [List.drop_left, List.take_left]
end

/-! ### Ordering -/

/-- The entries of each of the first `N` cells. -/
def runsOf (N : Nat) (L : List (Nat × Nat)) : List (List (Nat × Nat)) := (List.range N).map fun x => L.filter fun ab => decide (ab.1 = x)

theorem runsOf_get (N : Nat) (L : List (Nat × Nat)) (x : Nat) (h : x < N) :
    (runsOf N L)[x]? = some (L.filter fun ab => decide (ab.1 = x)) := by
  unfold runsOf
  rw [List.getElem?_map, List.getElem?_range h]; rfl

theorem runsOf_len (N : Nat) (L : List (Nat × Nat)) : (runsOf N L).length = N := by simp [runsOf]

theorem sum_ite_count (a c : Nat) : ∀ l : List Nat, (l.map fun x => if a = x then c else 0).sum = l.count a * c := by
  intro l
  induction l with
  | nil => simp
  | cons x l ih =>
    rw [List.map_cons, List.sum_cons, ih, List.count_cons]
    by_cases h : a = x
    · subst h; simp; ring
    · have : ¬ x = a := fun e => h e.symm
      simp [h, this]

theorem runsOf_perm (N : Nat) (L : List (Nat × Nat)) (h : ∀ ab ∈ L, ab.1 < N) : (runsOf N L).flatten.Perm L := by
  rw [List.perm_iff_count]
  intro ab
  unfold runsOf
  rw [List.count_flatten, List.map_map]
  have hc : ∀ x, List.count ab (L.filter fun ab => decide (ab.1 = x)) = if ab.1 = x then List.count ab L else 0 := by
    intro x
    by_cases hx : ab.1 = x
    · rw [if_pos hx, List.count_filter (by simpa using hx)]
    · rw [if_neg hx, List.count_eq_zero]
      intro hm
      have := (List.mem_filter.1 hm).2
      exact hx (by simpa using this)
  have : (List.count ab ∘ fun x => L.filter fun ab => decide (ab.1 = x)) = fun x => if ab.1 = x then List.count ab L else 0 := by
    funext x; exact hc x
  rw [this]
  by_cases hm : ab ∈ L
  · rw [sum_ite_count, List.count_eq_one_of_mem List.nodup_range (List.mem_range.2 (h ab hm))]; simp
  · rw [List.count_eq_zero_of_not_mem hm]; simp

theorem runsOf_off (N : Nat) (L L' : List (Nat × Nat)) (h : L.Perm L') (x : Nat) : runOff (runsOf N L) x = runOff (runsOf N L') x := by
  unfold runOff runsOf
  rw [← List.map_take, ← List.map_take, List.length_flatten, List.length_flatten, List.map_map, List.map_map]
  congr 1
  apply List.map_congr_left
  intro y _
  exact (h.filter _).length_eq

/-- The entries in the order of execution. -/
theorem fold_entries {σ : Type} (f : σ → Nat × Nat → Option σ) (inter : List (Nat × Nat)) (order : List Nat)
    (hord : order.Perm (List.range inter.length)) : ∃ es : List (Nat × Nat), es.Perm inter ∧ ∀ s : σ,
      order.foldlM (fun s i => (inter[i]?).bind (f s)) s = es.foldlM f s := by
  refine ⟨order.map fun i => inter.getD i (0, 0), ?_, ?_⟩
  · have := hord.map fun i => inter.getD i (0, 0)
    refine this.trans (List.Perm.of_eq ?_)
    apply List.ext_getElem (by simp)
    intro i h1 h2
    simp [List.getElem?_eq_getElem h2]
  · have hlt : ∀ i ∈ order, i < inter.length := fun i hi => List.mem_range.1 (hord.mem_iff.1 hi)
    clear hord
    induction order with
    | nil => intro s; rfl
    | cons i order ih =>
      intro s
      have hi := hlt i (by simp)
      rw [List.foldlM_cons, List.map_cons, List.foldlM_cons, List.getElem?_eq_getElem hi, Option.bind_some,
        show inter.getD i (0, 0) = inter[i] by rw [List.getD_eq_getElem?_getD, List.getElem?_eq_getElem hi]; rfl]
      congr 1
      funext s'
      exact ih (fun k hk => hlt k (by simp [hk])) s'

theorem count_fold : ∀ (es : List (Nat × Nat)) (o : List W32) (c : Nat → Nat), (∀ ab ∈ es, ab.1 < o.length) →
    (∀ g < o.length, o[g]? = some (BitVec.ofNat 32 (c g))) →
    ∃ o', es.foldlM (fun o ab => (o[ab.1]?).bind fun v => wr o ab.1 (v + 1)) o = some o' ∧ o'.length = o.length ∧
      ∀ g < o.length, o'[g]? = some (BitVec.ofNat 32 (c g + (es.filter fun ab => decide (ab.1 = g)).length)) := by
  intro es
  induction es with
  | nil => intro o c _ hc; exact ⟨o, rfl, rfl, by simpa using hc⟩
  | cons ab es ih =>
    intro o c hlt hc
    have hab := hlt ab (by simp)
    obtain ⟨o', h1, h2, h3⟩ := ih (o.set ab.1 (BitVec.ofNat 32 (c ab.1) + 1)) (fun g => c g + if ab.1 = g then 1 else 0)
      (fun x hx => by rw [List.length_set]; exact hlt x (by simp [hx])) (by
        intro g hg
        rw [List.length_set] at hg
        by_cases h : ab.1 = g
        · subst h
          rw [List.getElem?_set_self hg, if_pos rfl, BitVec.ofNat_add]; rfl
        · rw [List.getElem?_set_ne h, hc g hg, if_neg h, Nat.add_zero])
    refine ⟨o', ?_, by rw [h2, List.length_set], ?_⟩
    · rw [List.foldlM_cons, hc _ hab, Option.bind_some]
      unfold wr at h1 ⊢
      rw [if_pos hab]
      exact h1
    · intro g hg
      rw [h3 g (by rw [List.length_set]; exact hg), List.filter_cons]
      by_cases h : ab.1 = g
      · simp [h]; congr 1; omega
      · simp [h]

theorem scatter_fold (N : Nat) (all : List (Nat × Nat)) (hN : ∀ ab ∈ all, ab.1 < N) (hlt : all.length < 2 ^ 32) :
    ∀ (es done : List (Nat × Nat)) (b : List (Nat × Nat)) (hs : List W32), done ++ es = all → b.length = all.length → hs.length = N + 1 →
      (∀ x < N, ∃ v, hs[x]? = some v ∧ v.toNat = runOff (runsOf N all) x + (done.filter fun ab => decide (ab.1 = x)).length) →
      (∀ x < N, ∀ j < (done.filter fun ab => decide (ab.1 = x)).length,
        b[runOff (runsOf N all) x + j]? = (done.filter fun ab => decide (ab.1 = x))[j]?) →
      ∃ b' hs', es.foldlM (fun (s : List (Nat × Nat) × List W32) ab => (s.2[ab.1]?).bind fun h => (wr s.1 h.toNat ab).bind fun b =>
          (wr s.2 ab.1 (h + 1)).bind fun hs => some (b, hs)) (b, hs) = some (b', hs') ∧ b'.length = all.length ∧
        ∀ x < N, ∀ j < (all.filter fun ab => decide (ab.1 = x)).length,
          b'[runOff (runsOf N all) x + j]? = (all.filter fun ab => decide (ab.1 = x))[j]? := by
  have htot : (runsOf N all).flatten.length = all.length := (runsOf_perm N all hN).length_eq
  intro es
  induction es with
  | nil =>
    intro done b hs hd hb _ _ hbuf
    rw [List.append_nil] at hd
    subst hd
    exact ⟨b, hs, rfl, hb, hbuf⟩
  | cons ab es ih =>
    intro done b hs hd hb hhs hheads hbuf
    have hab : ab.1 < N := hN ab (by rw [← hd]; simp)
    obtain ⟨v, hv, hvn⟩ := hheads ab.1 hab
    have hroom : ∀ x < N, runOff (runsOf N all) (x + 1) = runOff (runsOf N all) x + (all.filter fun ab => decide (ab.1 = x)).length :=
      fun x hx => runOff_end _ x _ (runsOf_get N all x hx)
    have hle : ∀ x, (done.filter fun ab => decide (ab.1 = x)).length + ((ab :: es).filter fun ab => decide (ab.1 = x)).length =
        (all.filter fun ab => decide (ab.1 = x)).length := by
      intro x; rw [← hd, List.filter_append, List.length_append]
    have hle1 := hle ab.1
    rw [List.filter_cons_of_pos (by simp), List.length_cons] at hle1
    have hr1 := hroom ab.1 hab
    have hend := runOff_le (runsOf N all) (ab.1 + 1)
    have hvlt : v.toNat < b.length := by omega
    have hdone : ∀ x, ((done ++ [ab]).filter fun ab => decide (ab.1 = x)) =
        (done.filter fun ab => decide (ab.1 = x)) ++ if ab.1 = x then [ab] else [] := by
      intro x
      rw [List.filter_append]
      by_cases hx : ab.1 = x <;> simp [hx]
    obtain ⟨b', hs', h1, h2, h3⟩ := ih (done ++ [ab]) (b.set v.toNat ab) (hs.set ab.1 (v + 1)) (by rw [List.append_assoc]; exact hd)
      (by rw [List.length_set]; exact hb) (by rw [List.length_set]; exact hhs) (by
        intro x hx
        rw [hdone x]
        by_cases h : ab.1 = x
        · subst h
          refine ⟨v + 1, List.getElem?_set_self (by omega), ?_⟩
          rw [if_pos rfl, List.length_append, List.length_singleton, BitVec.toNat_add, hvn, show BitVec.toNat (1 : W32) = 1 from rfl, Nat.mod_eq_of_lt (by omega)]
          omega
        · rw [List.getElem?_set_ne h, if_neg h, List.append_nil]
          exact hheads x hx) (by
        intro x hx j hj
        rw [hdone x] at hj ⊢
        by_cases h : ab.1 = x
        · subst h
          rw [if_pos rfl] at hj ⊢
          rw [List.length_append, List.length_singleton] at hj
          by_cases hjd : j < (done.filter fun ab' => decide (ab'.1 = ab.1)).length
          · rw [List.getElem?_append_left hjd, List.getElem?_set_ne (by omega)]
            exact hbuf ab.1 hx j hjd
          · rw [List.getElem?_append_right (by omega), show j - (done.filter fun ab' => decide (ab'.1 = ab.1)).length = 0 by omega,
              show runOff (runsOf N all) ab.1 + j = v.toNat by omega, List.getElem?_set_self hvlt]; rfl
        · rw [if_neg h, List.append_nil] at hj ⊢
          have hlx := hle x
          have hrx := hroom x hx
          rw [List.getElem?_set_ne, hbuf x hx j hj]
          intro he
          rcases Nat.lt_or_gt_of_ne h with hlt' | hlt'
          · have := runOff_mono (runsOf N all) (show ab.1 + 1 ≤ x by omega); omega
          · have := runOff_mono (runsOf N all) (show x + 1 ≤ ab.1 by omega); omega)
    refine ⟨b', hs', ?_, h2, h3⟩
    rw [List.foldlM_cons]
    simp only [hv, Option.bind_some]
    have hh : ab.1 < hs.length := by omega
    unfold wr at h1 ⊢
    rw [if_pos hvlt, Option.bind_some, if_pos hh, Option.bind_some]
    exact h1

/-- An ordered version of `inter`: a rearrangement grouped by first cell, entry `g` of the offsets being the start of group `g`. -/
structure GroupedBy (N : Nat) (inter out : List (Nat × Nat)) (offs : List W32) : Prop where
  perm : out.Perm inter
  len : offs.length = N + 1
  slice : ∀ g < N, ∃ s e : W32, offs[g]? = some s ∧ offs[g + 1]? = some e ∧ s.toNat ≤ e.toNat ∧ e.toNat ≤ out.length ∧
    (seg out s.toNat e.toNat).Perm (inter.filter fun ab => decide (ab.1 = g))
  first : offs[0]? = some 0
  last : ∃ e : W32, offs[N]? = some e ∧ e.toNat = out.length

theorem flatten_perm {α : Type} {A B : List (List α)} (h : List.Forall₂ List.Perm A B) : A.flatten.Perm B.flatten := by
  induction h with
  | nil => exact List.Perm.refl _
  | cons h1 _ ih => simp only [List.flatten_cons]; exact h1.append ih

theorem grouped_runs (N : Nat) (inter : List (Nat × Nat)) (runs : List (List (Nat × Nat))) (offs : List W32) (hrl : runs.length = N)
    (hlen : offs.length = N + 1) (hoff : ∀ i ≤ N, ∃ v, offs[i]? = some v ∧ v.toNat = runOff runs i)
    (hperm : ∀ (i : Nat) r, runs[i]? = some r → r.Perm (inter.filter fun ab => decide (ab.1 = i))) (hN : ∀ ab ∈ inter, ab.1 < N) :
    GroupedBy N inter runs.flatten offs := by
  refine ⟨?_, hlen, ?_, ?_, ?_⟩
  · refine List.Perm.trans ?_ (runsOf_perm N inter hN)
    apply flatten_perm
    unfold runsOf
    rw [List.forall₂_iff_get]
    refine ⟨by simp [hrl], ?_⟩
    intro i h1 h2
    have := hperm i _ (List.getElem?_eq_getElem h1)
    simpa using this
  · intro g hg
    obtain ⟨s, e1, e2⟩ := hoff g (by omega)
    obtain ⟨e, e3, e4⟩ := hoff (g + 1) (by omega)
    have hr : runs[g]? = some runs[g] := List.getElem?_eq_getElem (by omega)
    refine ⟨s, e, e1, e3, ?_, ?_, ?_⟩
    · rw [e2, e4]; exact runOff_mono _ (by omega)
    · rw [e4]; exact runOff_le _ _
    · rw [e2, e4, seg_flatten runs g _ hr]
      exact hperm g _ hr
  · obtain ⟨v, e1, e2⟩ := hoff 0 (by omega)
    rw [e1]
    congr 1
    apply BitVec.eq_of_toNat_eq
    rw [e2]; simp [runOff]
  · obtain ⟨v, e1, e2⟩ := hoff N (by omega)
    exact ⟨v, e1, by rw [e2, ← hrl, runOff_total]⟩

theorem exclSpec_off (N : Nat) (L : List (Nat × Nat)) (cnt : List W32)
    (hc : ∀ g < N, cnt[g]? = some (BitVec.ofNat 32 (L.filter fun ab => decide (ab.1 = g)).length)) : ∀ i, i ≤ N →
    exclSpec cnt i = BitVec.ofNat 32 (runOff (runsOf N L) i) := by
  intro i
  induction i with
  | zero => intro _; rw [exclSpec_zero]; simp [runOff]
  | succ i ih =>
    intro hi
    rw [exclSpec_succ _ i _ (hc i (by omega)), ih (by omega), runOff_end _ i _ (runsOf_get N L i (by omega)), BitVec.ofNat_add]

theorem seg_get {α : Type} (l : List α) (s e j : Nat) (hj : s + j < e) : (seg l s e)[j]? = l[s + j]? := by
  unfold seg
  rw [List.getElem?_take_of_lt (by omega), List.getElem?_drop]

/-- The ordering kernels group the interactions by first cell, each group sorted, whatever the order of execution of their items. -/
theorem reorderScan_ok (sortRange : Nat → Nat → List (Nat × Nat) → Option (List (Nat × Nat))) (hsr : SortsRanges pair2Lt sortRange)
    (env : ReorderEnv) (N : Nat) (inter : List (Nat × Nat)) (hN : ∀ ab ∈ inter, ab.1 < N) (hlt : inter.length < 2 ^ 32)
    (h1 : env.ordCount.Perm (List.range inter.length)) (h2 : env.ordScatter.Perm (List.range inter.length))
    (h3 : env.ordSeg.Perm (List.range N)) :
    ∃ out offs, reorderScan sortRange env N inter = some (out, offs) ∧ GroupedBy N inter out offs ∧ CompSorted pair2Lt out := by
  unfold reorderScan
  by_cases h0 : inter.length = 0
  · have : inter = [] := List.length_eq_zero_iff.1 h0
    subst this
    rw [if_pos h0]
    refine ⟨[], _, rfl, ?_, by simp [CompSorted]⟩
    have := grouped_runs N [] (List.replicate N []) (List.replicate (N + 1) 0) (by simp) (by simp) (by
      intro i hi
      refine ⟨0, by rw [List.getElem?_replicate, if_pos (by omega)], ?_⟩
      simp [runOff, List.take_replicate]) (by
      intro i r hr
      rw [List.getElem?_replicate] at hr
      split at hr
      · cases hr; exact List.Perm.refl _
      · cases hr) (by simp)
    simpa using this
  · rw [if_neg h0]
    obtain ⟨es, pe, fe⟩ := fold_entries (fun (o : List W32) ab => (o[ab.1]?).bind fun v => wr o ab.1 (v + 1)) inter env.ordCount h1
    obtain ⟨cnt, c1, c2, c3⟩ := count_fold es (List.replicate (N + 1) 0) (fun _ => 0)
      (fun ab hab => by rw [List.length_replicate]; have := hN ab (pe.mem_iff.1 hab); omega)
      (fun g hg => by rw [List.length_replicate] at hg; rw [List.getElem?_replicate, if_pos hg]; rfl)
    rw [List.length_replicate] at c2 c3
    have hcount : reorderCount inter env.ordCount (List.replicate (N + 1) 0) = some cnt := (fe _).trans c1
    have hcnt : ∀ g < N, cnt[g]? = some (BitVec.ofNat 32 (inter.filter fun ab => decide (ab.1 = g)).length) := by
      intro g hg
      rw [c3 g (by omega), Nat.zero_add, (pe.filter _).length_eq]
    have hspec := exclSpec_off N inter cnt hcnt
    obtain ⟨o1, o2⟩ := C14_fallback cnt
    rw [c2] at o1 o2
    have htot : (runsOf N inter).flatten.length = inter.length := (runsOf_perm N inter hN).length_eq
    have hoffs : ∀ i ≤ N, ∃ v, (exclSumFallback cnt)[i]? = some v ∧ v.toNat = runOff (runsOf N inter) i := by
      intro i hi
      refine ⟨_, o2 i (by omega), ?_⟩
      have := runOff_le (runsOf N inter) i
      rw [hspec i hi, BitVec.toNat_ofNat, Nat.mod_eq_of_lt (by omega)]
    obtain ⟨es', pe', fe'⟩ := fold_entries (fun (s : List (Nat × Nat) × List W32) ab => (s.2[ab.1]?).bind fun h => (wr s.1 h.toNat ab).bind fun b =>
          (wr s.2 ab.1 (h + 1)).bind fun hs => some (b, hs)) inter env.ordScatter h2
    have hlen' := pe'.length_eq
    obtain ⟨b, hs, s1, s2, s3⟩ := scatter_fold N es' (fun ab hab => hN ab (pe'.mem_iff.1 hab)) (by omega) es' []
      ((List.range inter.length).map env.junk) (exclSumFallback cnt) rfl (by simp [hlen']) o1
      (fun x hx => by
        obtain ⟨v, hv, hvn⟩ := hoffs x (by omega)
        refine ⟨v, hv, ?_⟩
        rw [hvn, runsOf_off N es' inter pe' x]; rfl)
      (fun x _ j hj => absurd hj (by simp))
    have hscat : reorderScatter inter env.ordScatter ((List.range inter.length).map env.junk) (exclSumFallback cnt) = some (b, hs) :=
      (fe' _).trans s1
    have hbuf : b = (runsOf N es').flatten := by
      apply eq_flatten
      · rw [s2, (runsOf_perm N es' (fun ab hab => hN ab (pe'.mem_iff.1 hab))).length_eq]
      · intro i r hr j hj
        have hi : i < N := by have := (List.getElem?_eq_some_iff.1 hr).1; rw [runsOf_len] at this; exact this
        rw [runsOf_get N es' i hi] at hr
        have hr := Option.some.inj hr
        subst hr
        exact s3 i hi j hj
    have hon : ∀ i ≤ N, ((exclSumFallback cnt).map (·.toNat))[i]? = some (runOff (runsOf N es') i) := by
      intro i hi
      obtain ⟨v, hv, hvn⟩ := hoffs i hi
      rw [List.getElem?_map, hv, Option.map_some, hvn, runsOf_off N es' inter pe' i]
    have hol : ((exclSumFallback cnt).map (·.toNat)).length = N + 1 := by rw [List.length_map, o1]
    have hbl : b.length = inter.length := by omega
    have hblf : (runsOf N es').flatten.length = b.length := by rw [← hbuf]
    obtain ⟨out, w1, w2, w3, _⟩ := segmentedSortWith_ok pair2Lt sortRange hsr ((exclSumFallback cnt).map (·.toNat)) env.ordSeg b (by
        intro g s e hs he
        have hg : g + 1 ≤ N := by have := (List.getElem?_eq_some_iff.1 he).1; omega
        rw [hon g (by omega)] at hs
        rw [hon (g + 1) hg] at he
        have hs := Option.some.inj hs
        have he := Option.some.inj he
        subst hs; subst he
        exact ⟨runOff_mono _ (by omega), by rw [← hblf]; exact runOff_le _ _⟩)
      (fun h => by rw [h] at hol; simp at hol) (by rw [hol]; exact h3)
    refine ⟨out, exclSumFallback cnt, ?_, ?_⟩
    · simp only [hcount, Option.bind_eq_bind, Option.bind_some, hscat, w1]; rfl
    · -- cut the result in segments
      have hseg : ∀ g < N, CompSorted pair2Lt (seg out (runOff (runsOf N es') g) (runOff (runsOf N es') (g + 1))) ∧
          (seg out (runOff (runsOf N es') g) (runOff (runsOf N es') (g + 1))).Perm (es'.filter fun ab => decide (ab.1 = g)) := by
        intro g hg
        obtain ⟨q1, q2⟩ := w3 g _ _ (hon g (by omega)) (hon (g + 1) (by omega))
        refine ⟨q1, q2.trans ?_⟩
        rw [hbuf, seg_flatten _ g _ (runsOf_get N es' g hg)]
      let runs := (List.range N).map fun g => seg out (runOff (runsOf N es') g) (runOff (runsOf N es') (g + 1))
      have hrg : ∀ g < N, runs[g]? = some (seg out (runOff (runsOf N es') g) (runOff (runsOf N es') (g + 1))) := by
        intro g hg
        simp only [runs]
        rw [List.getElem?_map, List.getElem?_range hg]; rfl
      have hrl : runs.length = N := by simp [runs]
      have hro : ∀ i ≤ N, runOff runs i = runOff (runsOf N es') i := by
        intro i
        induction i with
        | zero => intro _; simp [runOff]
        | succ i ih =>
          intro hi
          rw [runOff_end runs i _ (hrg i (by omega)), (hseg i (by omega)).2.length_eq, ih (by omega),
            runOff_end _ i _ (runsOf_get N es' i (by omega))]
      have hout : out = runs.flatten := by
        apply eq_flatten
        · rw [← runOff_total, hrl, hro N (Nat.le_refl _), w2]
          have := runOff_total (runsOf N es')
          rw [runsOf_len] at this
          rw [this]; omega
        · intro i r hr j hj
          have hi : i < N := by have := (List.getElem?_eq_some_iff.1 hr).1; omega
          rw [hrg i hi] at hr
          have hr := Option.some.inj hr
          subst hr
          rw [hro i (by omega), seg_get]
          unfold seg at hj
          rw [List.length_take] at hj
          omega
      have hG : GroupedBy N inter runs.flatten (exclSumFallback cnt) := by
        refine grouped_runs N inter runs _ hrl o1 ?_ ?_ hN
        · intro i hi
          obtain ⟨v, hv, hvn⟩ := hoffs i hi
          exact ⟨v, hv, by rw [hvn, hro i hi, runsOf_off N es' inter pe' i]⟩
        · intro i r hr
          have hi : i < N := by have := (List.getElem?_eq_some_iff.1 hr).1; omega
          rw [hrg i hi] at hr
          have hr := Option.some.inj hr
          subst hr
          exact (hseg i hi).2.trans (pe'.filter _)
      rw [hout]
      refine ⟨hG, ?_⟩
      unfold CompSorted
      rw [List.pairwise_flatten]
      constructor
      · intro r hr
        obtain ⟨g, hg, rfl⟩ := List.mem_map.1 hr
        exact (hseg g (List.mem_range.1 hg)).1
      · simp only [runs]
        rw [List.pairwise_map]
        refine List.Pairwise.imp_of_mem ?_ (List.pairwise_lt_range (n := N))
        intro g g' hg hg' hlt' x hx y hy
        have hx := (hseg g (List.mem_range.1 hg)).2.mem_iff.1 hx
        have hy := (hseg g' (List.mem_range.1 hg')).2.mem_iff.1 hy
        have ex : x.1 = g := by simpa using (List.mem_filter.1 hx).2
        have ey : y.1 = g' := by simpa using (List.mem_filter.1 hy).2
        unfold pair2Lt
        rw [if_neg (by omega)]
        simp; omega

end Shamrock
