import Verif.Model.AmrGraph
import Verif.Proof.NeighCache
/-! The compressed rows of the neighbour graphs. -/
namespace Shamrock.Amr

theorem putStep_local {α : Type} (i : Nat) (v : α) (S : Nat → Prop) (h : S i) : LocalStep S (putStep i v) := by
  constructor
  · intro l m l' m' e
    unfold putStep at e
    split at e
    · rw [Option.some.injEq, Prod.mk.injEq] at e
      rw [← e.2, List.length_set]
      refine ⟨rfl, fun j hj => ?_⟩
      rw [List.getElem?_set_ne]
      rintro rfl; exact hj h
    · cases e
  · intro l m m2 l' m' hl hm e
    unfold putStep at e ⊢
    split at e
    · rename_i hi
      rw [if_pos (by omega)]
      rw [Option.some.injEq, Prod.mk.injEq] at e
      refine ⟨m2.set i v, by rw [e.1], fun j hj => ?_⟩
      rw [← e.2, List.getElem?_set, List.getElem?_set, hl, hm j hj]
    · cases e

theorem puts_run {α : Type} (o : Nat) : ∀ (r : List α) (m : List α) (u : Unit) (k : Nat), o + k + r.length ≤ m.length →
    ∃ m', itemRun ((r.zipIdx k).map fun (b, k) => putStep (o + k) b) u m = some (u, m') ∧
      (∀ j < r.length, m'[o + k + j]? = r[j]?) ∧ ∀ i < o + k, m'[i]? = m[i]? := by
  intro r
  induction r with
  | nil => intro m u k _; exact ⟨m, rfl, fun j hj => absurd hj (Nat.not_lt_zero _), fun _ _ => rfl⟩
  | cons b r ih =>
    intro m u k h
    rw [List.length_cons] at h
    obtain ⟨m', e1, e2, e3⟩ := ih (m.set (o + k) b) u (k + 1) (by rw [List.length_set]; omega)
    refine ⟨m', ?_, ?_, ?_⟩
    · rw [List.zipIdx_cons, List.map_cons, itemRun]
      show (putStep (o + k) b u m).bind _ = _
      rw [putStep, if_pos (by omega)]
      exact e1
    · intro j hj
      cases j with
      | zero => rw [Nat.add_zero, e3 _ (by omega), List.getElem?_set_self (by omega)]; rfl
      | succ j =>
        have := e2 j (by rw [List.length_cons] at hj; omega)
        rw [show o + (k + 1) + j = o + k + (j + 1) by omega] at this
        rw [this]; rfl
    · intro i hi
      rw [e3 i (by omega), List.getElem?_set_ne (by omega)]

/-- A kernel in which item `a` stores its run at its place, whatever the schedule. -/
theorem scatter_ok {α : Type} (runs : List (List α)) (prog : Nat → List (KStep Unit α)) (sched : List Nat) (m : List α)
    (hm : m.length = runs.flatten.length)
    (hp : ∀ (a : Nat) r, runs[a]? = some r → prog a = r.zipIdx.map fun (b, k) => putStep (runOff runs a + k) b) :
    kLaunch runs.length prog () sched m = some runs.flatten := by
  have hrun : ∀ t, ∃ res : List α, t < runs.length → ∃ r, runs[t]? = some r ∧ itemRun (prog t) () m = some ((), res) ∧
      ∀ j < r.length, res[runOff runs t + j]? = r[j]? := by
    intro t
    by_cases ht : t < runs.length
    · have hr : runs[t]? = some runs[t] := List.getElem?_eq_getElem ht
      have h1 := runOff_end runs t _ hr
      have h2 := runOff_le runs (t + 1)
      obtain ⟨m', e1, e2, _⟩ := puts_run (runOff runs t) runs[t] m () 0 (by omega)
      exact ⟨m', fun _ => ⟨_, hr, by rw [hp t _ hr]; exact e1, e2⟩⟩
    · exact ⟨[], fun h => absurd h ht⟩
  choose res hres using hrun
  obtain ⟨out, h1, h2, h3, _⟩ := kLaunch_disjoint runs.length prog () (fun t i => runOff runs t ≤ i ∧ i < runOff runs (t + 1))
    (by
      intro t ht t' ht' hne i hi hi'
      rcases Nat.lt_or_gt_of_ne hne with h | h
      · have := runOff_mono runs (i := t + 1) (k := t') (by omega); omega
      · have := runOff_mono runs (i := t' + 1) (k := t) (by omega); omega)
    (by
      intro t ht s hs
      have hr : runs[t]? = some runs[t] := List.getElem?_eq_getElem ht
      rw [hp t _ hr, List.mem_map] at hs
      obtain ⟨⟨b, k⟩, hk, rfl⟩ := hs
      have hk' := List.mem_zipIdx hk
      apply putStep_local
      rw [runOff_end runs t _ hr]
      omega)
    m res (fun t ht => by obtain ⟨r, _, h, _⟩ := hres t ht; exact ⟨(), h⟩) sched
  rw [h1, Option.some.injEq]
  refine eq_flatten runs out (by omega) ?_
  intro i r hr j hj
  have hi := (List.getElem?_eq_some_iff.1 hr).1
  obtain ⟨r', e1, _, e3⟩ := hres i hi
  rw [hr, Option.some.injEq] at e1
  subst e1
  rw [h3 i hi _ ⟨by omega, by rw [runOff_end runs i r hr]; omega⟩, e3 j hj]

/-- What the graph of runs `R 0, ..., R (n-1)` is. -/
structure GraphOf (g : NGraph) (n : Nat) (R : Nat → List Nat) : Prop where
  objs : g.objs = n
  links : g.links = ((List.range n).map R).flatten
  count : g.count.toNat = g.links.length
  len : g.offset.length = n + 1
  offs : ∀ i ≤ n, ∃ v, g.offset[i]? = some v ∧ v.toNat = runOff ((List.range n).map R) i

theorem runs_get (n : Nat) (R : Nat → List Nat) (i : Nat) (hi : i < n) : ((List.range n).map R)[i]? = some (R i) := by
  rw [List.getElem?_map, List.getElem?_range hi]; rfl

theorem GraphOf.forEach {g : NGraph} {n : Nat} {R : Nat → List Nat} (h : GraphOf g n R) (i : Nat) (hi : i < n) : g.forEach i = some (R i) := by
  obtain ⟨a, ha, ha'⟩ := h.offs i (by omega)
  obtain ⟨b, hb, hb'⟩ := h.offs (i + 1) (by omega)
  have hr := runs_get n R i hi
  have hs := seg_flatten _ i (R i) hr
  have h2 := runOff_le ((List.range n).map R) (i + 1)
  have h1 := runOff_end _ i _ hr
  unfold NGraph.forEach
  simp only [ha, hb, Option.bind_eq_bind, Option.bind_some, ha', hb', h.links]
  rw [mapM_range'_seg _ _ _ (by omega)]
  rw [seg] at hs
  rw [hs]

theorem neighGraph_ok (junk : Nat → Nat) (sched : List Nat) (n : Nat) (item : Nat → Option (List Nat)) (R : Nat → List Nat)
    (hitem : ∀ a < n, item a = some (R a)) (hlt : ((List.range n).map R).flatten.length < 2 ^ 32) :
    ∃ g, neighGraph junk sched n item = some g ∧ GraphOf g n R := by
  unfold neighGraph
  rw [mapM_range_some n item R hitem]
  simp only [Option.bind_eq_bind, Option.bind_some]
  generalize hruns : (List.range n).map R = runs at hlt ⊢
  have hrl : runs.length = n := by rw [← hruns]; simp
  obtain ⟨f1, f2⟩ := C14_fallback (runs.map (fun r => BitVec.ofNat 32 r.length) ++ [0])
  have hg : ∀ i ≤ n, ∃ v, (exclSumFallback (runs.map (fun r => BitVec.ofNat 32 r.length) ++ [0]))[i]? = some v ∧ v.toNat = runOff runs i := by
    intro i hi
    refine ⟨_, f2 i (by simp; omega), ?_⟩
    rw [exclSpec_runs runs [0] i (by omega), BitVec.toNat_ofNat, Nat.mod_eq_of_lt]
    have := runOff_le runs i
    omega
  generalize exclSumFallback (runs.map (fun r => BitVec.ofNat 32 r.length) ++ [0]) = off at *
  obtain ⟨v, hv, hvn⟩ := hg n (le_refl _)
  rw [← hrl, runOff_total] at hvn
  rw [hv, Option.bind_some]
  have hk := scatter_ok runs (fillItem off runs) sched ((List.range v.toNat).map junk) (by simp [hvn]) (by
    intro a r hr
    have ha := (List.getElem?_eq_some_iff.1 hr).1
    obtain ⟨o, ho, hon⟩ := hg a (by omega)
    unfold fillItem
    simp only [ho, hr]
    apply List.map_congr_left
    rintro ⟨b, k⟩ hk
    have hk' := List.mem_zipIdx hk
    have h1 := runOff_end runs a r hr
    have h2 := runOff_le runs (a + 1)
    show putStep _ _ = putStep _ _
    congr 1
    rw [BitVec.toNat_add, BitVec.toNat_ofNat, hon, Nat.mod_eq_of_lt (a := k) (by omega), Nat.mod_eq_of_lt (by omega)])
  rw [hrl] at hk
  rw [hk]
  refine ⟨_, rfl, rfl, by rw [hruns], ?_, ?_, ?_⟩
  · show v.toNat = runs.flatten.length; exact hvn
  · show off.length = n + 1
    rw [f1]; simp [hrl]
  · rw [hruns]; exact hg

/-- The antecedents: entry `s` is the object whose row contains link `s`. -/
theorem antecedent_ok (junk : Nat → Nat) (sched : List Nat) (g : NGraph) (n : Nat) (R : Nat → List Nat) (h : GraphOf g n R) :
    ∃ g', antecedent junk sched g = some g' ∧ GraphOf g' n R ∧ g'.ante = (List.range n).flatMap fun i => (R i).map fun _ => i := by
  unfold antecedent
  have hoff : ∀ i, runOff ((List.range n).map fun i => (R i).map fun _ => i) i = runOff ((List.range n).map R) i := by
    intro i
    unfold runOff
    rw [← List.map_take, ← List.map_take, List.length_flatten, List.length_flatten, List.map_map, List.map_map]
    congr 1
    apply List.map_congr_left
    intro a _
    simp
  have hk := scatter_ok ((List.range n).map fun i => (R i).map fun _ => i) (anteItem g) sched ((List.range g.count.toNat).map junk)
    (by
      rw [List.length_map, List.length_range, h.count, h.links, ← runOff_total, ← runOff_total, List.length_map, List.length_map, hoff])
    (by
      intro a r hr
      have ha := (List.getElem?_eq_some_iff.1 hr).1
      rw [List.length_map, List.length_range] at ha
      rw [List.getElem?_map, List.getElem?_range ha, Option.map_some, Option.some.injEq] at hr
      subst hr
      obtain ⟨x, hx, hx'⟩ := h.offs a (by omega)
      obtain ⟨y, hy, hy'⟩ := h.offs (a + 1) (by omega)
      unfold anteItem
      simp only [hx, hy]
      rw [hx', hy', hoff, runOff_end _ a _ (runs_get n R a ha), Nat.add_sub_cancel_left]
      apply List.ext_getElem?
      intro k
      rw [List.getElem?_map, List.getElem?_map, List.getElem?_zipIdx, List.getElem?_map]
      by_cases hk : k < (R a).length
      · rw [List.getElem?_range' hk, List.getElem?_eq_getElem hk]; simp
      · rw [List.getElem?_eq_none (by simpa using hk), List.getElem?_eq_none (by simpa using hk)]; rfl)
  rw [List.length_map, List.length_range] at hk
  rw [h.objs, hk]
  exact ⟨_, rfl, ⟨rfl, h.links, h.count, h.len, h.offs⟩, by rw [List.flatMap_def]⟩

end Shamrock.Amr
