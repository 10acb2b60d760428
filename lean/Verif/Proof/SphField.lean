import Verif.Proof.SphForce
import Verif.Proof.Exchange
import Verif.Props.SphGhostGeom
/-! The fields of the ghosts: which particle each merged element comes from. -/
namespace Shamrock.Sph

section
variable {F : Type}

/-- What the solver keeps of a particle: position, smoothing length, velocity, internal energy, `omega`, viscosity parameter. -/
structure Gas (F : Type) where
  x : V3 F
  h : F
  v : V3 F
  u : F
  omega : F
  alpha : F

/-- Specification: position and smoothing length of the particles of a patch. -/
def posOf (gasOf : Nat → List (Gas F)) (S : Nat) : List (V3 F × F) := (gasOf S).map fun g => (g.x, g.h)

/-- Specification: the layer holding the fields of the particles. -/
def mkFields (gs : List (Gas F)) : FData F := ⟨⟨1, gs.map (·.h)⟩, ⟨1, gs.map (·.u)⟩, ⟨1, gs.map (·.v)⟩, ⟨1, gs.map (·.omega)⟩⟩

/-- Specification: an image of a particle, displaced by `D` and with the speed of the image added. -/
def Gas.moved [Add F] (D V : V3 F) (g : Gas F) : Gas F := { g with x := g.x.addv D, v := g.v.addv V }

variable [LinearOrder F] [Add F] [Sub F] [Neg F] [Zero F]

/-- Specification: the numbers of the particles of `S` that one shift brings to `R`. -/
def ghostIdx (rho : Nat → F) (bS bR : Box F) (S R : Nat) (ps : List (V3 F × F)) (sh : Shift F) : List Nat :=
  if (S = R ∧ sh.1 = ⟨0, 0, 0⟩) ∨ Touches bS bR (rho R) sh.2 = false then []
  else selIdx (fun p => inPatchConverted p.1 (bS.intersect ((bR.expandAll (rho R)).addOffset sh.2.negv)).lower
    (bS.intersect ((bR.expandAll (rho R)).addOffset sh.2.negv)).upper) ps

/-- Specification: where the merged elements of `R` come from (patch, number, shift): its own particles, then the ghosts by sender and shift. -/
def labelsOf (rho : Nat → F) (pbox : Nat → Box F) (psOf : Nat → List (V3 F × F)) (shs : List (Shift F)) (ss : List Nat) (R : Nat) : List (Nat × Nat × Shift F) :=
  ((List.range (psOf R).length).map fun i => (R, i, (⟨0, 0, 0⟩, ⟨0, 0, 0⟩))) ++
    ss.flatMap fun S => shs.flatMap fun sh => (ghostIdx rho (pbox S) (pbox R) S R (psOf S) sh).map fun i => (S, i, sh)

/-- Specification: the particle of a label, moved. -/
def gasImage (gasOf : Nat → List (Gas F)) (speed : V3 Int → V3 F) (l : Nat × Nat × Shift F) : Option (Gas F) :=
  ((gasOf l.1)[l.2.1]?).map (Gas.moved l.2.2.2 (speed l.2.2.1))

/-- Specification: the merged particles of `R`. -/
def mergedGas (rho : Nat → F) (pbox : Nat → Box F) (gasOf : Nat → List (Gas F)) (speed : V3 Int → V3 F) (shs : List (Shift F)) (ss : List Nat) (R : Nat) : List (Gas F) :=
  (gasOf R) ++ ss.flatMap fun S => shs.flatMap fun sh => (ghostIdx rho (pbox S) (pbox R) S R (posOf gasOf S) sh).filterMap fun i => gasImage gasOf speed (S, i, sh)

theorem ghostIdx_lt (rho : Nat → F) (bS bR : Box F) (S R : Nat) (ps : List (V3 F × F)) (sh : Shift F) : ∀ i ∈ ghostIdx rho bS bR S R ps sh, i < ps.length := by
  intro i hi
  unfold ghostIdx at hi
  split at hi
  · cases hi
  · exact selIdx_lt _ _ _ hi

/-- The positions of the merged particles are those of C56. -/
theorem mergedOf_gas (rho : Nat → F) (pbox : Nat → Box F) (gasOf : Nat → List (Gas F)) (speed : V3 Int → V3 F) (shs : List (Shift F)) (ss : List Nat) (R : Nat) :
    mergedOf rho pbox (posOf gasOf) shs ss R = (mergedGas rho pbox gasOf speed shs ss R).map fun g => (g.x, g.h) := by
  unfold mergedOf mergedGas
  rw [List.map_append, List.map_flatMap]
  congr 1
  refine List.flatMap_congr fun S _ => ?_
  rw [List.map_flatMap]
  refine List.flatMap_congr fun sh _ => ?_
  rw [List.map_filterMap]
  unfold ghostsOf ghostIdx
  split
  · rfl
  · rw [← selIdx_values, List.map_filterMap]
    refine List.filterMap_congr fun i _ => ?_
    unfold gasImage posOf
    rw [List.getElem?_map]
    cases (gasOf S)[i]? <;> rfl

/-! ### Index tables of a rank -/

theorem rank_tab (M : MonoOps F) {box : PatchCoord → V3 F × V3 F} {t : PTree} (h : THist PTree.init t) (hN : BoxNest box t) (hL : LeafLinks t)
    (rk : Nat → Nat) (pbox : Nat → Box F) (psOf : Nat → List (V3 F × F)) (world : List (List (Nat × PartData F))) (W : GhostWorld rk box t pbox psOf world)
    (rho : Nat → F) (shs : List (Shift F)) (ss : List Nat) (hsall : ∀ R, R ∈ ss ↔ ∃ d ∈ world, R ∈ d.map (·.1))
    (rs : List Nat) (hr : Enumerates rs t.roots) (hnd : rs.Nodup) (scheds : Nat → List Nat)
    (omp : Nat → List (List ((Nat × Nat) × Interf F)) → List ((Nat × Nat) × Interf F)) (homp : ∀ i ls, Interleaves ls (omp i ls))
    (r : Nat) (d : List (Nat × PartData F)) (hw : world[r]? = some d) (loc : List Nat) (hp : loc.Perm (d.map (·.1))) :
    ∃ s ids tf m tab N, serBuild box t rs = .ok (s, ids) ∧ treeField s rho scheds = some tf ∧
        (∀ f, findInterfaces s ids tf rho (f + N) omp (loc.map fun i => (i, pbox i)) 0 shs [] = some (.ok m)) ∧
        genIdTable d m [] = .ok tab ∧ MMOk tab ∧
      (∀ e ∈ tab, e.1.1 ∈ d.map (·.1) ∧ e.1.2 ∈ ss ∧ e.2.2.length ≠ 0 ∧ e.2.2.length ≤ (psOf e.1.1).length ∧ (∀ i ∈ e.2.2, i < (psOf e.1.1).length) ∧
        (psOf e.1.1).length < 2 ^ 32) ∧
      ∀ S ∈ d.map (·.1), ∀ R ∈ ss, (tab.filter fun e => decide (e.1 = (S, R))).flatMap (fun e => e.2.2.map fun i => (S, i, ((e.2.1.ioff, e.2.1.off) : Shift F))) =
        shs.flatMap fun sh => (ghostIdx rho (pbox S) (pbox R) S R (psOf S) sh).map fun i => (S, i, sh) := by
  have H := h.inv TInv.init
  have hdm := List.mem_of_getElem? hw
  obtain ⟨s, ids, K, e0, SO⟩ := serBuild_ok box t H h.lev rs hr hnd
  have T := SO.shape H h.lev
  obtain ⟨tf, f1, f2, f3⟩ := treeField_ok T rho (SO.linked H hL) scheds
  have hlm : ∀ p ∈ loc.map (fun i => (i, pbox i)), p.1 ∈ d.map (·.1) ∧ p.2 = pbox p.1 := by
    intro p hpm
    obtain ⟨i, hi, rfl⟩ := List.mem_map.1 hpm
    exact ⟨hp.mem_iff.1 hi, rfl⟩
  obtain ⟨N, m, add, m1, m2, m3, m4, m5⟩ := findInterfaces_ok M h hN hL hr hnd e0 rho tf f3 omp homp (loc.map fun i => (i, pbox i))
    (by
      rw [List.map_map]
      have : ((fun p : Nat × Box F => p.1) ∘ fun i => (i, pbox i)) = id := rfl
      rw [this, List.map_id]
      exact hp.nodup_iff.2 (mapOk_nodup (W.maps d hdm)))
    (by
      intro p hpm
      obtain ⟨kv, k1, k2⟩ := List.mem_map.1 (hlm p hpm).1
      have := W.ids d hdm kv k1
      omega) shs 0 [] (by simp [MMOk])
  rw [List.nil_append] at m3
  have hmm : ∀ e ∈ m, e ∈ add := by
    intro e he
    have : e ∈ m.filter fun x => decide (x.1 = e.1) := List.mem_filter.2 ⟨he, by simp⟩
    rw [m3 e.1] at this
    exact List.mem_of_mem_filter this
  have hmd : ∀ S ∈ d.map (·.1), mfind d S = some (mkPart (psOf S)) ∧ (psOf S).length < 2 ^ 32 := by
    intro S hS
    obtain ⟨kv, k1, rfl⟩ := List.mem_map.1 hS
    obtain ⟨q1, q2⟩ := W.data d hdm kv k1
    refine ⟨?_, q2⟩
    rw [← q1]
    exact (mfind_some (W.maps d hdm)).2 k1
  have hsend : ∀ e ∈ m, e.1.1 ∈ d.map (·.1) := by
    intro e he
    obtain ⟨⟨bS, hb⟩, -⟩ := m4 e (hmm e he)
    exact (hlm _ hb).1
  obtain ⟨tab, h1, h2, h3⟩ := genIdTable_ok d psOf m [] (by simp [MMOk]) (fun e he => hmd _ (hsend e he))
  rw [List.nil_append] at h3
  have hmem : ∀ e ∈ tab, ∃ e' ∈ m, tabOf psOf e' = some e := by
    intro e hm
    have : e ∈ tab.filter fun x => decide (x.1 = e.1) := List.mem_filter.2 ⟨hm, by simp⟩
    rw [h3 e.1] at this
    exact List.mem_filterMap.1 (List.mem_of_mem_filter this)
  refine ⟨s, ids, tf, m, tab, N, e0, f1, m1, h1, h2, fun e he => ?_, fun S hS R hR => ?_⟩
  · obtain ⟨e', a1, a2⟩ := hmem e he
    unfold tabOf at a2
    split at a2
    · cases a2
    · rename_i h0
      rw [Option.some.injEq] at a2
      subst a2
      refine ⟨hsend e' a1, ?_, h0, ?_, selIdx_lt _ _, (hmd _ (hsend e' a1)).2⟩
      · rw [hsall]
        exact (W.patch _).2 (m4 e' (hmm e' a1)).2
      · rw [selIdx_length]; exact List.length_filter_le _ _
  · obtain ⟨b, hb⟩ := (W.patch R).1 ((hsall R).1 hR)
    have := W.boxes R b hb
    subst this
    have e5 := m5 S (pbox S) (List.mem_map.2 ⟨S, hp.mem_iff.2 hS, rfl⟩) R _ hb
    rw [h3 (S, R)]
    rw [← m3] at e5
    -- the filter commutes with `tabOf`
    have comm : ∀ l : List ((Nat × Nat) × Interf F), (l.filterMap (tabOf psOf)).filter (fun e => decide (e.1 = (S, R))) =
        (l.filter fun e => decide (e.1 = (S, R))).filterMap (tabOf psOf) := by
      intro l
      induction l with
      | nil => rfl
      | cons e l ih =>
        rw [List.filterMap_cons, List.filter_cons]
        have key : ∀ x, tabOf psOf e = some x → x.1 = e.1 := by
          intro x hx
          unfold tabOf at hx
          split at hx
          · cases hx
          · rw [Option.some.injEq] at hx; subst hx; rfl
        rcases ht : tabOf psOf e with _ | x
        · dsimp only
          by_cases hk : e.1 = (S, R)
          · rw [if_pos (by simpa using hk), List.filterMap_cons, ht, ih]
          · rw [if_neg (by simpa using hk), ih]
        · dsimp only
          rw [List.filter_cons, key x ht]
          by_cases hk : e.1 = (S, R)
          · rw [if_pos (by simpa using hk), if_pos (by simpa using hk), List.filterMap_cons, ht, ih]
          · rw [if_neg (by simpa using hk), if_neg (by simpa using hk), ih]
    rw [comm, e5]
    clear comm e5 h1 h2 h3 hmem m1 m2 m3 m4 m5
    induction shs with
    | nil => rfl
    | cons sh shs ih =>
      rw [List.flatMap_cons, List.flatMap_cons, List.filterMap_append, List.flatMap_append, ih]
      congr 1
      unfold pairEntry ghostIdx
      split
      · rfl
      · rw [List.filterMap_cons, List.filterMap_nil]
        unfold tabOf
        dsimp only
        have hI : (inCut (⟨sh.2, sh.1, (pbox S).intersect (((pbox R).expandAll (rho R)).addOffset sh.2.negv)⟩ : Interf F)) =
          (fun p : V3 F × F => inPatchConverted p.1 ((pbox S).intersect (((pbox R).expandAll (rho R)).addOffset sh.2.negv)).lower
            ((pbox S).intersect (((pbox R).expandAll (rho R)).addOffset sh.2.negv)).upper) := rfl
        rw [hI]
        generalize selIdx _ (psOf S) = ix
        by_cases h0 : ix.length = 0
        · rw [if_pos h0, List.length_eq_zero_iff.1 h0]
          rfl
        · rw [if_neg h0]
          dsimp only
          rw [List.flatMap_cons, List.flatMap_nil, List.append_nil]

/-! ### Exchange -/

theorem exchange_rows {A ρ : Type} (rows : A → List ρ) (rk : Nat → Nat) {box : PatchCoord → V3 F × V3 F} {t : PTree}
    (pbox : Nat → Box F) (psOf : Nat → List (V3 F × F)) (world : List (List (Nat × PartData F))) (W : GhostWorld rk box t pbox psOf world)
    (ss : List Nat) (hss : ss.Pairwise (· < ·)) (hsall : ∀ R, R ∈ ss ↔ ∃ d ∈ world, R ∈ d.map (·.1))
    (content : Nat → Nat → List ρ) (g : Nat → List ((Nat × Nat) × A))
    (hg : ∀ (r : Nat) d, world[r]? = some d → (∀ e ∈ g r, e.1.1 ∈ d.map (·.1) ∧ e.1.2 ∈ ss) ∧
      ∀ S ∈ d.map (·.1), ∀ R ∈ ss, ((g r).filter fun e => decide (e.1 = (S, R))).flatMap (fun e => rows e.2) = content S R)
    (mx dev lim : Nat) (buf : Bool) (hlim : 0 < lim) (hmx : mx < 2 ^ 31) (h8 : 8 ≤ mx)
    (ser : A → List Byte) (deser : List Byte → A) (hinv : ∀ r < world.length, ∀ e ∈ g r, deser (ser e.2) = e.2)
    (hfit : FitsComm rk mx dev ser ((List.range world.length).map g)) :
    CommDelivers rk mx dev lim buf (((List.range world.length).map g).map fun l => (splitSend rk ser l).2) fun r recv => ∀ d, world[r]? = some d →
      (∀ e ∈ joinRecv deser recv (splitSend rk ser (g r)).1, ∃ r' < world.length, e ∈ g r') ∧
      ∀ R ∈ d.map (·.1), ((joinRecv deser recv (splitSend rk ser (g r)).1).filter fun e => decide (e.1.2 = R)).flatMap (fun e => rows e.2) = ss.flatMap fun S => content S R := by
  have hsmall : ∀ r < world.length, world[r]? = some (world[r]?.getD []) := by
    intro r hr
    rw [List.getElem?_eq_getElem hr]; rfl
  have hown : ∀ S ∈ ss, S < u64max ∧ ∃ d, world[rk S]? = some d ∧ S ∈ d.map (·.1) := by
    intro S hS
    obtain ⟨d', d1, d2⟩ := (hsall S).1 hS
    obtain ⟨kv, q1, q2⟩ := List.mem_map.1 d2
    obtain ⟨r', hr'⟩ := List.mem_iff_getElem?.1 d1
    have := W.own r' d' hr' kv q1
    rw [q2] at this
    refine ⟨?_, d', ?_, d2⟩
    · rw [← q2]; exact W.ids d' d1 kv q1
    · rw [this]; exact hr'
  have hrs : ∀ r < world.length, ∀ e ∈ g r, rk e.1.1 = r ∧ e.1.1 < u64max ∧ rk e.1.2 < world.length ∧ e.1.2 < u64max := by
    intro r hr e he
    have hw := hsmall r hr
    obtain ⟨h1, h2⟩ := (hg r _ hw).1 e he
    obtain ⟨kv, k1, k2⟩ := List.mem_map.1 h1
    obtain ⟨o1, d', o2, -⟩ := hown _ h2
    rw [← k2]
    exact ⟨W.own r _ hw kv k1, W.ids _ (List.mem_of_getElem? hw) kv k1, (List.getElem?_eq_some_iff.1 o2).1, o1⟩
  refine CommDelivers.mono (exchange_ok rk world.length g hrs mx dev lim buf hlim hmx h8 ser deser hinv hfit) fun r _ recv hP d hd => ?_
  have hrlt := (List.getElem?_eq_some_iff.1 hd).1
  have hdm := List.mem_of_getElem? hd
  obtain ⟨j1, j2, j3⟩ := hP hrlt
  generalize joinRecv deser recv (splitSend rk ser (g r)).1 = rc at j1 j2 j3 ⊢
  refine ⟨fun e he => (j2 e he).2, fun R hR => ?_⟩
  have hRs : R ∈ ss := (hsall R).2 ⟨d, hdm, hR⟩
  have hrk : rk R = r := by
    obtain ⟨kv, k1, rfl⟩ := List.mem_map.1 hR
    exact W.own r d hd kv k1
  rw [by_sender rc j1 R ss hss (fun e he _ => by
    obtain ⟨-, r', hr', hel⟩ := j2 e he
    have hw := hsmall r' hr'
    exact (hsall _).2 ⟨_, List.mem_of_getElem? hw, ((hg r' _ hw).1 e hel).1⟩), List.flatMap_assoc]
  refine List.flatMap_congr fun S hS => ?_
  obtain ⟨-, d', o2, o3⟩ := hown S hS
  rw [j3 S R hrk (List.getElem?_eq_some_iff.1 o2).1]
  exact (hg (rk S) d' o2).2 S o3 R hRs

end
end Shamrock.Sph
