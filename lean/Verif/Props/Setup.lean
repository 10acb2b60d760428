import Verif.Proof.SetupNode
/-! **C66.** The initial particles of an SPH setup do not depend on the number of ranks nor on the step sizes. -/
namespace Shamrock.Setup

/-! ### Specification -/

/-- A setup as the user describes it. `lattice`: all sites `pt i j k` of an index box, of which those satisfying `keep` become particles
(`disc` chooses between the two iterators). `random`: `N` particles, particle number `i` made from value number `i` of the engine. -/
inductive Desc (X E : Type) where
  | lattice (disc : Bool) (pt : Int → Int → Int → X) (keep : X → Bool) (cmin cmax : Int × Int × Int)
  | random (e : E) (N : Nat) (f : Nat → X)
  | filter (p : X → Bool) (d : Desc X E)
  | modify (f : X → X) (d : Desc X E)
  | combine (d1 d2 : Desc X E)

/-- The particles of a setup, with no reference to ranks, iterators or steps. -/
def Desc.parts {X E : Type} (eng : E → E × Nat) : Desc X E → List X
  | .lattice _ pt keep cmin cmax => ((idxBox cmin cmax).map fun p => pt p.1 p.2.1 p.2.2).filter keep
  | .random e N f => (List.range N).map fun i => f (engNth eng e i)
  | .filter p d => (d.parts eng).filter p
  | .modify f d => (d.parts eng).map f
  | .combine d1 d2 => d1.parts eng ++ d2.parts eng

/-- Number of sites or draws. -/
def Desc.total {X E : Type} : Desc X E → Nat
  | .lattice _ _ _ cmin cmax => (idxBox cmin cmax).length
  | .random _ N _ => N
  | .filter _ d => d.total
  | .modify _ d => d.total
  | .combine d1 d2 => d1.total + d2.total

/-- Nesting of combiners. -/
def Desc.depth {X E : Type} : Desc X E → Nat
  | .lattice _ _ _ _ _ => 0
  | .random _ _ _ => 0
  | .filter _ d => d.depth
  | .modify _ d => d.depth
  | .combine d1 d2 => max d1.depth d2.depth + 1

/-- The index bounds are i32 differences and the box has fewer than 2^63 sites; u64 count of draws. -/
def Desc.Ok {X E : Type} : Desc X E → Prop
  | .lattice _ _ _ cmin cmax => cmin.1 ≤ cmax.1 ∧ cmin.2.1 ≤ cmax.2.1 ∧ cmin.2.2 ≤ cmax.2.2 ∧ cmax.1 - cmin.1 < 2 ^ 31 ∧ cmax.2.1 - cmin.2.1 < 2 ^ 31 ∧
      cmax.2.2 - cmin.2.2 < 2 ^ 31 ∧ (idxBox cmin cmax).length < 2 ^ 63
  | .random _ N _ => N < 2 ^ 64
  | .filter _ d => d.Ok
  | .modify _ d => d.Ok
  | .combine d1 d2 => d1.Ok ∧ d2.Ok

/-- The nodes built by the constructors on `R` ranks (SPHSetup.cpp:33-109). -/
def Desc.build {X E : Type} (fuel R : Nat) : Desc X E → Option (Node X E)
  | .lattice disc pt keep cmin cmax => (LIt.mk' (if disc then discAxis fuel else contAxis) pt cmin cmax).map fun g => .lat (List.replicate R g) keep
  | .random e N f => some (.rnd (List.replicate R (IPG.mk' e N)) f)
  | .filter p d => (d.build fuel R).map (.filt p)
  | .modify f d => (d.build fuel R).map (.upd f)
  | .combine d1 d2 => (d1.build fuel R).bind fun n1 => (d2.build fuel R).map fun n2 => .add n1 n2

/-- No combiner inside. -/
def Desc.linear {X E : Type} : Desc X E → Bool
  | .lattice _ _ _ _ _ => true
  | .random _ _ _ => true
  | .filter _ d => d.linear
  | .modify _ d => d.linear
  | .combine _ _ => false

/-- What all iterations pushed on all ranks, in the order iteration, rank, position. -/
def pushed {X : Type} (hist : List (List (List (Nat × X)))) : List (Nat × X) := hist.flatten.flatten

/-- Admissible requests: one u32 for each of the `R` ranks at every iteration, at least one of them at least `m`, none reaching the threshold. -/
structure Requests (R m : Nat) (thr : Option Nat) (reqs : Nat → List Nat) : Prop where
  len : ∀ i, (reqs i).length = R
  u32 : ∀ i, ∀ v ∈ reqs i, v < 2 ^ 32
  some_rank : ∀ i, ∃ v ∈ reqs i, m ≤ v
  below : ∀ t, thr = some t → ∀ i, ∀ v ∈ reqs i, v < t

/-! ### Proof -/

theorem giveIds_spec {X : Type} (inj : Nat) (outs : List (List X)) (h : inj + outs.flatten.length < 2 ^ 64) :
    (giveIds inj outs).flatten = (outs.flatten.zipIdx inj).map fun p => (p.2, p.1) := by
  have hrow : ∀ (l : List X) (off : Nat), off + l.length < 2 ^ 64 → (l.zipIdx.map fun (x, i) => (u64add i off, x)) = (l.zipIdx off).map fun p => (p.2, p.1) := by
    intro l off hl
    apply List.ext_getElem?
    intro i
    simp only [List.getElem?_map, List.getElem?_zipIdx, Option.map_map]
    cases hi : l[i]? with
    | none => rfl
    | some x =>
      have : i < l.length := (List.getElem?_eq_some_iff.1 hi).1
      simp only [Option.map_some, Function.comp, u64add, Option.some.injEq, Prod.mk.injEq, and_true]
      omega
  suffices ∀ (pre outs : List (List X)), inj + (pre ++ outs).flatten.length < 2 ^ 64 →
      ((outs.zipIdx pre.length).map fun (l, r) => l.zipIdx.map fun (x, i) => (u64add i (u64add (accU64 (((pre ++ outs).map List.length).take r)) inj), x)).flatten
        = (outs.flatten.zipIdx (pre.flatten.length + inj)).map fun p => (p.2, p.1) by
    have := this [] outs (by simpa using h)
    simpa [giveIds] using this
  intro pre outs
  induction outs generalizing pre with
  | nil => intro _; simp
  | cons l outs ih =>
    intro hb
    have e : pre ++ l :: outs = (pre ++ [l]) ++ outs := by simp
    have ih' := ih (pre ++ [l]) (by rw [← e]; exact hb)
    rw [← e] at ih'
    simp only [List.length_append, List.length_cons, List.length_nil, Nat.zero_add] at ih'
    simp only [List.flatten_append, List.length_append, List.flatten_cons] at hb
    rw [List.zipIdx_cons, List.map_cons, List.flatten_cons, ih']
    have hoff : u64add (accU64 (((pre ++ l :: outs).map List.length).take pre.length)) inj = pre.flatten.length + inj := by
      rw [List.map_append, List.take_left' (by simp), accU64_eq, sum_map_length]
      unfold u64add; omega
    simp only [hoff]
    rw [hrow l _ (by omega), List.flatten_cons, List.zipIdx_append, List.map_append]
    congr 3
    simp only [List.flatten_append, List.length_append, List.flatten_cons, List.flatten_nil, List.append_nil]
    omega

theorem sum_le_mul (l : List Nat) (b : Nat) (h : ∀ v ∈ l, v ≤ b) : l.sum ≤ l.length * b := by
  induction l with
  | nil => simp
  | cons a l ih =>
    have h1 := h a (by simp)
    have h2 := ih fun v hv => h v (by simp [hv])
    simp only [List.sum_cons, List.length_cons, Nat.succ_mul]; omega

theorem zipIdx_split {X : Type} (a b : List X) (k : Nat) : ((a ++ b).zipIdx k).map (fun p => (p.2, p.1)) = (a.zipIdx k).map (fun p => (p.2, p.1)) ++ (b.zipIdx (a.length + k)).map (fun p => (p.2, p.1)) := by
  rw [List.zipIdx_append, List.map_append, Nat.add_comm]

theorem loop_ok {X E : Type} (eng : E → E × Nat) (R : Nat) (hR : 0 < R) (hR2 : R ≤ 2 ^ 31) (thr : Option Nat) (reqs : Nat → List Nat) (m : Nat)
    (hq : Requests R m thr reqs) : ∀ (sz : Nat) (n : Node X E) (g : Gen X) (it inj : Nat), g.size = sz → Sim eng R n g → 2 ^ g.depth ≤ m →
      inj + g.content.length < 2 ^ 64 →
      ∃ (hist : List (List (List (Nat × X)))) (s : List X), (∀ fuel, sz < fuel → setupLoop eng thr reqs fuel it n inj = some (.ok (hist, inj + g.content.length))) ∧
        pushed hist = (s.zipIdx inj).map (fun p => (p.2, p.1)) ∧ s.Perm g.content ∧ (g.linear = true → s = g.content) ∧ (∀ st ∈ hist, st.length = R) := by
  intro sz
  induction sz using Nat.strong_induction_on with
  | _ sz ih =>
    intro n g it inj hsz hsim hdep hb
    have hd := sim_done eng R n g hsim
    by_cases hdone : g.done = true
    · have hc := done_content g hdone
      refine ⟨[], [], ?_, rfl, by rw [hc], fun _ => hc.symm, by simp⟩
      intro fuel hf
      obtain ⟨fuel, rfl⟩ : ∃ k, fuel = k + 1 := ⟨fuel - 1, by omega⟩
      rw [setupLoop, hd, allEq_replicate R hR, hdone, if_pos (by simp), hc]; rfl
    · have hdf : g.done = false := by simpa using hdone
      obtain ⟨v, hv, hmv⟩ := hq.some_rank it
      have hsum : (reqs it).sum < 2 ^ 63 := by
        have h1 := sum_le_mul (reqs it) (2 ^ 32 - 1) fun v hv => by have := hq.u32 it v hv; omega
        rw [hq.len] at h1
        have h2 : R * (2 ^ 32 - 1) ≤ 2 ^ 31 * (2 ^ 32 - 1) := Nat.mul_le_mul_right _ hR2
        omega
      obtain ⟨n', hn', hsim'⟩ := sim_step eng R hR n g hsim (reqs it) (hq.len it) hsum
      have hprog := step_progress g (reqs it) v hv (by omega) hdf
      have hperm := step_content g (reqs it)
      have hl := hperm.length_eq
      rw [List.length_append] at hl
      obtain ⟨hist, s, h1, h2, h3, h4, h5⟩ := ih (g.step (reqs it)).2.size (by omega) n' (g.step (reqs it)).2 (it + 1) (inj + (g.step (reqs it)).1.flatten.length) rfl hsim'
        (by rw [step_depth]; exact hdep) (by omega)
      refine ⟨giveIds inj (g.step (reqs it)).1 :: hist, (g.step (reqs it)).1.flatten ++ s, ?_, ?_, ?_, ?_, ?_⟩
      · intro fuel hf
        obtain ⟨fuel, rfl⟩ : ∃ k, fuel = k + 1 := ⟨fuel - 1, by omega⟩
        have hinj : u64add inj (accU64 ((g.step (reqs it)).1.map List.length)) = inj + (g.step (reqs it)).1.flatten.length := by
          rw [accU64_eq, sum_map_length]; unfold u64add; omega
        have hany : (g.step (reqs it)).1.any (tooMany thr) = false := by
          rw [List.any_eq_false]
          intro out hout
          cases thr with
          | none => simp [tooMany]
          | some t =>
            obtain ⟨r, hr⟩ := List.mem_iff_getElem?.1 hout
            have hrl : r < (reqs it).length := by rw [← step_length g]; exact (List.getElem?_eq_some_iff.1 hr).1
            have hle := step_out_le g (reqs it) r out (reqs it)[r] hr (List.getElem?_eq_getElem hrl)
            have := hq.below t rfl it _ (List.getElem_mem hrl)
            simp only [tooMany, decide_eq_true_eq]; omega
        rw [setupLoop, hd, allEq_replicate R hR, allEq_replicate R hR, hdf, if_neg (by simp), if_pos (by simp), hn']
        simp only [hany, Bool.false_eq_true, if_false, hinj, h1 fuel (by omega)]
        rw [show inj + (g.step (reqs it)).1.flatten.length + (g.step (reqs it)).2.content.length = inj + g.content.length by omega]
      · rw [pushed, List.flatten_cons, List.flatten_append, giveIds_spec inj _ (by omega), ← pushed, h2, zipIdx_split, Nat.add_comm inj]
      · exact (h3.append_left _).trans hperm
      · intro hlin
        have hl2 := step_linear g hlin (reqs it)
        rw [h4 hl2.2, hl2.1]
      · intro st hst
        rcases List.mem_cons.1 hst with rfl | hst
        · simp only [giveIds, List.length_map, List.length_zipIdx, step_length, hq.len]
        · exact h5 st hst

theorem engSeg_full {E : Type} (eng : E → E × Nat) (e : E) (N : Nat) : engSeg eng e 0 N = (List.range N).map (engNth eng e) := by
  unfold engSeg; rw [Nat.sub_zero, ← List.range_eq_range']

/-- The nodes built on `R` ranks stand for a stream that does not depend on `R`. -/
theorem build_ok {X E : Type} (eng : E → E × Nat) (fuel : Nat) (hf : 2 ^ 33 ≤ fuel) (d : Desc X E) (hd : d.Ok) :
    ∃ g : Gen X, g.content.Perm (d.parts eng) ∧ g.size = d.total ∧ g.depth = d.depth ∧ (g.linear = d.linear) ∧
      ∀ R, ∃ n, d.build fuel R = some n ∧ Sim eng R n g := by
  induction d with
  | lattice disc pt keep cmin cmax =>
    obtain ⟨h0, h1, h2, b0, b1, b2, hsz⟩ := hd
    obtain ⟨it, c0, c1, c2, hmk, hg, hat, hp⟩ := lit_fresh (if disc then discAxis fuel else contAxis) (by cases disc; exact contAxis_ok; exact discAxis_ok fuel hf)
      pt cmin cmax h0 h1 h2 b0 b1 b2 hsz
    refine ⟨.filt keep (.src (latSeg it c0 c1 c2 0 it.max)), hp.filter keep, ?_, rfl, rfl, ?_⟩
    · have := hp.length_eq; rw [List.length_map] at this; exact this
    · intro R
      refine ⟨.lat (List.replicate R it) keep, by simp [Desc.build, hmk], ?_⟩
      have := Sim.lat (eng := eng) (E := E) (R := R) keep it c0 c1 c2 (List.replicate R 0) 0 hg (by simp) (Nat.zero_le _) (by intro c hc; rw [List.eq_of_mem_replicate hc]; omega)
      rw [List.map_replicate, ← hat] at this
      exact this
  | random e N f =>
    refine ⟨.src ((engSeg eng e 0 N).map f), ?_, by simp [Gen.size, engSeg_length, Desc.total], rfl, rfl, ?_⟩
    · simp only [Gen.content, Desc.parts, engSeg_full, List.map_map]; exact List.Perm.refl _
    · intro R
      refine ⟨_, rfl, ?_⟩
      have := Sim.rnd (eng := eng) (R := R) f e N 0 hd (Nat.zero_le _)
      have he : IPG.mk' e N = ipgAt eng e N 0 := by simp [IPG.mk', ipgAt, engDiscard, eq_comm]
      rw [he]; exact this
  | filter p d ih =>
    obtain ⟨g, h1, h2, h3, h4, h5⟩ := ih hd
    refine ⟨.filt p g, h1.filter p, h2, h3, h4, fun R => ?_⟩
    obtain ⟨n, hn, hs⟩ := h5 R
    exact ⟨.filt p n, by simp [Desc.build, hn], .filt p n g hs⟩
  | modify f d ih =>
    obtain ⟨g, h1, h2, h3, h4, h5⟩ := ih hd
    refine ⟨.upd f g, h1.map f, h2, h3, h4, fun R => ?_⟩
    obtain ⟨n, hn, hs⟩ := h5 R
    exact ⟨.upd f n, by simp [Desc.build, hn], .upd f n g hs⟩
  | combine d1 d2 ih1 ih2 =>
    obtain ⟨g1, a1, a2, a3, a4, a5⟩ := ih1 hd.1
    obtain ⟨g2, b1, b2, b3, b4, b5⟩ := ih2 hd.2
    refine ⟨.add g1 g2, a1.append b1, by simp [Gen.size, Desc.total, a2, b2], by simp [Gen.depth, Desc.depth, a3, b3], rfl, fun R => ?_⟩
    obtain ⟨n1, hn1, hs1⟩ := a5 R
    obtain ⟨n2, hn2, hs2⟩ := b5 R
    exact ⟨.add n1 n2, by simp [Desc.build, hn1, hn2], .add n1 n2 g1 g2 hs1 hs2⟩

/-! ### Theorems -/

/-- **C66, discontinuous iterator.** For any i32 bounds `a ≤ b` (whose difference does not overflow) the iterator ends, and it has returned every integer of
`[a, b)` exactly once and nothing else. -/
theorem C66_discontinuous (a b : Int) (hab : a ≤ b) (h : b - a < 2 ^ 31) :
    ∃ it l, DIt.mk' a b = some it ∧ (∀ fuel, 2 ^ 33 ≤ fuel → it.collect fuel = some l) ∧ l.Nodup ∧ ∀ i, i ∈ l ↔ a ≤ i ∧ i < b := by
  obtain ⟨it, l, h1, h2, h3⟩ := dit_ok a b hab h
  exact ⟨it, l, h1, h2, h3.nodup_iff.2 (ints_nodup a b), fun i => by rw [h3.mem_iff]; exact mem_ints a b i⟩

example : ∃ it, DIt.mk' (-2) 3 = some it ∧ it.collect 40 = some [-2, 2, 0, -1, 1] := ⟨_, rfl, by decide +kernel⟩

/-- **C66, the setup.** For any setup, any number of ranks and any admissible requests (any step sizes, any distribution over the ranks, changing from iteration to
iteration; some rank asks for at least `2 ^ depth`), the generation loop terminates without error, all ranks leaving it together, and what the ranks push,
over all iterations, is every particle of the setup exactly once; the ids are `0, 1, …` without gap or repetition, and the final count is the number of
particles. -/
theorem C66_setup {X E : Type} (eng : E → E × Nat) (fuel0 : Nat) (hf : 2 ^ 33 ≤ fuel0) (d : Desc X E) (hd : d.Ok) (ht : d.total < 2 ^ 64) (R : Nat) (hR : 0 < R) (hR2 : R ≤ 2 ^ 31)
    (thr : Option Nat) (reqs : Nat → List Nat) (hq : Requests R (2 ^ d.depth) thr reqs) :
    ∃ n hist, d.build fuel0 R = some n ∧ (∀ fuel, d.total < fuel → setupLoop eng thr reqs fuel 0 n 0 = some (.ok (hist, (d.parts eng).length))) ∧
      ((pushed hist).map (·.2)).Perm (d.parts eng) ∧ (pushed hist).map (·.1) = List.range (d.parts eng).length ∧ ∀ st ∈ hist, st.length = R := by
  obtain ⟨g, h1, h2, h3, h4, h5⟩ := build_ok eng fuel0 hf d hd
  obtain ⟨n, hn, hs⟩ := h5 R
  have hcl := content_le_size g
  obtain ⟨hist, s, a1, a2, a3, a4, a5⟩ := loop_ok eng R hR hR2 thr reqs _ hq g.size n g 0 0 rfl hs (by rw [h3]) (by omega)
  refine ⟨n, hist, hn, ?_, ?_, ?_, a5⟩
  · intro fuel hfu
    rw [a1 fuel (by omega), Nat.zero_add, h1.length_eq]
  · rw [a2, List.map_map]
    have : s.zipIdx.map ((fun p : Nat × X => p.2) ∘ fun p => (p.2, p.1)) = s := by
      apply List.ext_getElem?
      intro i
      simp only [List.getElem?_map, List.getElem?_zipIdx, Option.map_map]
      cases s[i]? <;> rfl
    rw [this]
    exact a3.trans h1
  · rw [a2, List.map_map, ← (a3.trans h1).length_eq]
    apply List.ext_getElem?
    intro i
    simp only [List.getElem?_map, List.getElem?_zipIdx, Option.map_map]
    by_cases hi : i < s.length
    · rw [List.getElem?_range hi, List.getElem?_eq_getElem hi]; simp
    · rw [List.getElem?_eq_none (l := List.range s.length) (by simp; omega), List.getElem?_eq_none (by omega)]; rfl

/-- **C66, numbers of ranks.** Two runs of the same setup, on any numbers of ranks with any step sizes, push the same particles. -/
theorem C66_rank_independent {X E : Type} (eng : E → E × Nat) (fuel0 : Nat) (hf : 2 ^ 33 ≤ fuel0) (d : Desc X E) (hd : d.Ok) (ht : d.total < 2 ^ 64)
    (R R' : Nat) (hR : 0 < R) (hR' : 0 < R') (hR2 : R ≤ 2 ^ 31) (hR2' : R' ≤ 2 ^ 31) (thr thr' : Option Nat) (reqs reqs' : Nat → List Nat)
    (hq : Requests R (2 ^ d.depth) thr reqs) (hq' : Requests R' (2 ^ d.depth) thr' reqs') :
    ∃ n n' hist hist', d.build fuel0 R = some n ∧ d.build fuel0 R' = some n' ∧
      setupLoop eng thr reqs (d.total + 1) 0 n 0 = some (.ok (hist, (d.parts eng).length)) ∧
      setupLoop eng thr' reqs' (d.total + 1) 0 n' 0 = some (.ok (hist', (d.parts eng).length)) ∧
      ((pushed hist).map (·.2)).Perm ((pushed hist').map (·.2)) := by
  obtain ⟨n, hist, a1, a2, a3, _, _⟩ := C66_setup eng fuel0 hf d hd ht R hR hR2 thr reqs hq
  obtain ⟨n', hist', b1, b2, b3, _, _⟩ := C66_setup eng fuel0 hf d hd ht R' hR' hR2' thr' reqs' hq'
  exact ⟨n, n', hist, hist', a1, b1, a2 _ (by omega), b2 _ (by omega), a3.trans b3.symm⟩

/-- **C66, the ids.** In a setup without combiner every particle gets the same id whatever the number of ranks and the step sizes. (With a combiner this fails:
`C66_order_defect`.) -/
theorem C66_ids {X E : Type} (eng : E → E × Nat) (fuel0 : Nat) (hf : 2 ^ 33 ≤ fuel0) (d : Desc X E) (hd : d.Ok) (ht : d.total < 2 ^ 64) (hl : d.linear = true) :
    ∃ s : List X, s.Perm (d.parts eng) ∧ ∀ (R : Nat) (thr : Option Nat) (reqs : Nat → List Nat), 0 < R → R ≤ 2 ^ 31 → Requests R (2 ^ d.depth) thr reqs →
      ∃ n hist, d.build fuel0 R = some n ∧ (∀ fuel, d.total < fuel → setupLoop eng thr reqs fuel 0 n 0 = some (.ok (hist, (d.parts eng).length))) ∧
        ∀ (i : Nat) (x : X), (i, x) ∈ pushed hist ↔ s[i]? = some x := by
  obtain ⟨g, h1, h2, h3, h4, h5⟩ := build_ok eng fuel0 hf d hd
  refine ⟨g.content, h1, ?_⟩
  intro R thr reqs hR hR2 hq
  obtain ⟨n, hn, hs⟩ := h5 R
  have hcl := content_le_size g
  obtain ⟨hist, s, a1, a2, a3, a4, a5⟩ := loop_ok eng R hR hR2 thr reqs _ hq g.size n g 0 0 rfl hs (by rw [h3]) (by omega)
  refine ⟨n, hist, hn, ?_, ?_⟩
  · intro fuel hfu
    rw [a1 fuel (by omega), Nat.zero_add, h1.length_eq]
  · intro i x
    rw [a2, a4 (by rw [h4]; exact hl)]
    simp only [List.mem_map, Prod.mk.injEq]
    constructor
    · rintro ⟨⟨y, j⟩, hm, rfl, rfl⟩
      simpa [List.mk_mem_zipIdx_iff_getElem?] using hm
    · intro h
      exact ⟨(x, i), by simpa [List.mk_mem_zipIdx_iff_getElem?] using h, rfl, rfl⟩

end Shamrock.Setup
