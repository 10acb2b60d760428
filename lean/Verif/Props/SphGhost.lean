import Verif.Proof.SphGhostLayer
import Verif.Props.Reattribute
/-! C56: SPH ghost zones. -/
namespace Shamrock

section
variable {F : Type} [LinearOrder F] [Add F] [Sub F] [Neg F] [Zero F]

/-- The distributed patches: every rank holds the layers of the patches it owns, the patches are those linked to the leaves of the patch tree, `pbox` gives
their boxes and `psOf` their particles. -/
structure GhostWorld (rk : Nat → Nat) (box : PatchCoord → V3 F × V3 F) (t : PTree) (pbox : Nat → Box F) (psOf : Nat → List (V3 F × F))
    (world : List (List (Nat × PartData F))) : Prop where
  maps : ∀ d ∈ world, MapOk d
  own : ∀ (r : Nat) d, world[r]? = some d → ∀ kv ∈ d, rk kv.1 = r
  ids : ∀ d ∈ world, ∀ kv ∈ d, kv.1 < u64max
  data : ∀ d ∈ world, ∀ kv ∈ d, kv.2 = mkPart (psOf kv.1) ∧ (psOf kv.1).length < 2 ^ 32
  patch : ∀ R, (∃ d ∈ world, R ∈ d.map (·.1)) ↔ ∃ b, LeafPatch box t R b
  boxes : ∀ R b, LeafPatch box t R b → b = pbox R

/-- Specification: particles of patch `R` followed by its ghosts, by increasing sender id, then by shift, then in the order of the sender. -/
def mergedOf (rho : Nat → F) (pbox : Nat → Box F) (psOf : Nat → List (V3 F × F)) (shs : List (Shift F)) (ss : List Nat) (R : Nat) : List (V3 F × F) :=
  psOf R ++ ss.flatMap fun S => shs.flatMap (ghostsOf rho (pbox S) (pbox R) S R (psOf S))

theorem SerOk.linked {box : PatchCoord → V3 F × V3 F} {t : PTree} (H : TInv t) (hL : LeafLinks t) {rs ids K : List Nat} {s : SSt F} (SO : SerOk box t rs s ids K) :
    ∀ (i : Nat) nd l, s.nodes[i]? = some nd → nd.childs.head? = some u64max → s.links[i]? = some l → l ≠ u64max := by
  intro i nd l h1 h2 h3
  have hK : K[i]? = some (K[i]'(by rw [← SO.nodes]; exact (List.getElem?_eq_some_iff.1 h1).1)) := List.getElem?_eq_getElem _
  obtain ⟨n, nd', a1, a2, a3, a4, a5, a6⟩ := SO.ent i _ hK
  rw [h1, Option.some.injEq] at a2
  subst a2
  rw [h3, Option.some.injEq] at a3
  subst a3
  refine (hL.leaf _ n a1).1 ?_
  rcases a6 with ⟨b, -⟩ | ⟨b1, b2, b3⟩
  · exact b
  · exfalso
    have h8 := (H.kids _ n a1 b1).1
    obtain ⟨c, hc⟩ : ∃ c, n.childs[0]? = some c := ⟨_, List.getElem?_eq_getElem (by omega)⟩
    obtain ⟨m', e1, e2⟩ := b3 0 c hc
    rw [List.head?_eq_getElem?, e1, Option.some.injEq] at h2
    have := (List.getElem?_eq_some_iff.1 e2).1
    have := SO.small
    have := u64max_big
    omega

theorem max8_mem (l : List F) (h : l.length = 8) : max8 l ∈ l := by
  have two : ∀ a b : F, max a b = a ∨ max a b = b := fun a b => max_choice a b
  match l, h with
  | [a, b, c, d, e, f, g, i], _ =>
    simp only [max8]
    rcases two (max (max a b) (max c d)) (max (max e f) (max g i)) with h1 | h1 <;> rw [h1]
    · rcases two (max a b) (max c d) with h2 | h2 <;> rw [h2]
      · rcases two a b with h3 | h3 <;> rw [h3] <;> simp
      · rcases two c d with h3 | h3 <;> rw [h3] <;> simp
    · rcases two (max e f) (max g i) with h2 | h2 <;> rw [h2]
      · rcases two e f with h3 | h3 <;> rw [h3] <;> simp
      · rcases two g i with h3 | h3 <;> rw [h3] <;> simp

/-- **C56, interaction radius on the patch tree.** For every history of the patch tree, iteration order of the roots, values of the patches, and schedule of the
work items of every launch (a work item may read children before or after they are rewritten in the same launch): every leaf gets the value of its
patch and every inner node the largest value of its eight children, so the largest of the patches below it. -/
theorem C56_tree_field {box : PatchCoord → V3 F × V3 F} {t : PTree} (h : THist PTree.init t) (hL : LeafLinks t) {rs : List Nat}
    (hr : Enumerates rs t.roots) (hnd : rs.Nodup) (rho : Nat → F) (scheds : Nat → List Nat) :
    ∃ s ids tf, serBuild box t rs = .ok (s, ids) ∧ treeField s rho scheds = some tf ∧ tf.length = s.nodes.length ∧
      (∀ (i : Nat) nd l v, s.nodes[i]? = some nd → s.links[i]? = some l → tf[i]? = some v → nd.childs.head? = some u64max → v = rho l) ∧
      ∀ (i : Nat) nd v, s.nodes[i]? = some nd → tf[i]? = some v → nd.childs.head? ≠ some u64max →
        (∀ c ∈ nd.childs, ∃ w, tf[c]? = some w ∧ w ≤ v) ∧ ∃ c ∈ nd.childs, tf[c]? = some v := by
  have H := h.inv TInv.init
  obtain ⟨s, ids, K, e0, SO⟩ := serBuild_ok box t H h.lev rs hr hnd
  have T := SO.shape H h.lev
  obtain ⟨tf, f1, f2, f3⟩ := treeField_ok T rho (SO.linked H hL) scheds
  refine ⟨s, ids, tf, e0, f1, f2, fun i nd l v h1 h2 h3 h4 => ?_, fun i nd v h1 h2 h3 => ?_⟩
  · rw [f3 i (List.getElem?_eq_some_iff.1 h1).1, Option.some.injEq] at h3
    rw [← h3]
    exact treeV_leaf T rho i nd h1 (by simp [h4]) l h2
  · rw [f3 i (List.getElem?_eq_some_iff.1 h1).1, Option.some.injEq] at h2
    rw [treeV_inner T rho i nd ⟨h1, h3⟩] at h2
    obtain ⟨h8, hc⟩ := T.kids i nd h1 h3
    subst h2
    refine ⟨fun c hcm => ⟨_, f3 c (hc c hcm).1, ?_⟩, ?_⟩
    · exact le_max8 _ (by rw [List.length_map]; exact h8) _ (List.mem_map_of_mem (f := treeV s rho) hcm)
    · obtain ⟨c, hcm, he⟩ := List.mem_map.1 (max8_mem (nd.childs.map (treeV s rho)) (by rw [List.length_map]; exact h8))
      exact ⟨c, hcm, by rw [f3 c (hc c hcm).1, he]⟩

/-- **C56, content.** For every history of the patch tree, placement of the patches on the ranks, iteration order of roots and patches, schedule of the kernels, order of the
critical sections of the OpenMP loops and communication schedule: all ranks pass all stages without error, and after the exchange each non empty
patch has exactly its own particles followed by the ghosts of `mergedOf`, in that order: the result does not depend on the distribution over ranks. Holds
for any arithmetic with monotone addition and subtraction. -/
theorem C56_ghosts (M : MonoOps F) (rk : Nat → Nat) {box : PatchCoord → V3 F × V3 F} {t : PTree} (h : THist PTree.init t) (hN : BoxNest box t) (hL : LeafLinks t)
    (pbox : Nat → Box F) (psOf : Nat → List (V3 F × F)) (world : List (List (Nat × PartData F))) (W : GhostWorld rk box t pbox psOf world)
    (rho : Nat → F) (shs : List (Shift F)) (ss : List Nat) (hss : ss.Pairwise (· < ·)) (hsall : ∀ R, R ∈ ss ↔ ∃ d ∈ world, R ∈ d.map (·.1))
    (hsz : ∀ R ∈ ss, (mergedOf rho pbox psOf shs ss R).length < 2 ^ 32)
    (rs : Nat → List Nat) (hr : ∀ r, Enumerates (rs r) t.roots) (hnd : ∀ r, (rs r).Nodup)
    (scheds : Nat → Nat → List Nat) (omp : Nat → Nat → List (List ((Nat × Nat) × Interf F)) → List ((Nat × Nat) × Interf F))
    (homp : ∀ r i ls, Interleaves ls (omp r i ls)) (loc : Nat → List Nat) (hloc : ∀ (r : Nat) d, world[r]? = some d → (loc r).Perm (d.map (·.1)))
    (garbage : Nat → V3 F) (garbageH : Nat → F) (order : Nat → Nat → Nat → List Nat) (ho : ∀ r i, GoodOrder (order r i))
    (mx dev lim : Nat) (buf : Bool) (hlim : 0 < lim) (hmx : mx < 2 ^ 31) (h8 : 8 ≤ mx) :
    ∃ g : Nat → List ((Nat × Nat) × PartData F),
      (∀ (r : Nat) d, world[r]? = some d → ∃ s ids tf m tab N, serBuild box t (rs r) = .ok (s, ids) ∧ treeField s rho (scheds r) = some tf ∧
        (∀ f, findInterfaces s ids tf rho (f + N) (omp r) ((loc r).map fun i => (i, pbox i)) 0 shs [] = some (.ok m)) ∧
        genIdTable d m [] = .ok tab ∧ buildGhosts garbage garbageH (order r) d 0 tab = .ok (g r)) ∧
      ∀ (ser : PartData F → List Byte) (deser : List Byte → PartData F), (∀ r < world.length, ∀ e ∈ g r, deser (ser e.2) = e.2) →
        FitsComm rk mx dev ser ((List.range world.length).map g) →
        CommDelivers rk mx dev lim buf (((List.range world.length).map g).map fun l => (splitSend rk ser l).2) fun r recv => ∀ d, world[r]? = some d →
          mergePositions (joinRecv deser recv (splitSend rk ser (g r)).1) d =
            .ok ((d.filter fun p => decide (psOf p.1 ≠ [])).map fun p => (p.1, mkPart (mergedOf rho pbox psOf shs ss p.1))) := by
  have H := h.inv TInv.init
  have hsmall : ∀ r < world.length, world[r]? = some (world[r]?.getD []) := by
    intro r hr
    rw [List.getElem?_eq_getElem hr]; rfl
  -- every rank
  have hrank : ∀ r : Nat, ∃ g : List ((Nat × Nat) × PartData F), ∀ d, world[r]? = some d → (∃ s ids tf m tab N, serBuild box t (rs r) = .ok (s, ids) ∧ treeField s rho (scheds r) = some tf ∧
        (∀ f, findInterfaces s ids tf rho (f + N) (omp r) ((loc r).map fun i => (i, pbox i)) 0 shs [] = some (.ok m)) ∧
        genIdTable d m [] = .ok tab ∧ buildGhosts garbage garbageH (order r) d 0 tab = .ok g) ∧ MMOk g ∧
      (∀ e ∈ g, e.1.1 ∈ d.map (·.1) ∧ e.1.2 ∈ ss ∧ ∃ ps, e.2 = mkPart ps) ∧
      ∀ S ∈ d.map (·.1), ∀ R ∈ ss, (g.filter fun e => decide (e.1 = (S, R))).flatMap (fun e => e.2.parts) = shs.flatMap (ghostsOf rho (pbox S) (pbox R) S R (psOf S)) := by
    intro r
    cases hw : world[r]? with
    | none => exact ⟨[], fun d h => by cases h⟩
    | some d =>
      have hdm := List.mem_of_getElem? hw
      obtain ⟨s, ids, K, e0, SO⟩ := serBuild_ok box t H h.lev (rs r) (hr r) (hnd r)
      have T := SO.shape H h.lev
      obtain ⟨tf, f1, f2, f3⟩ := treeField_ok T rho (SO.linked H hL) (scheds r)
      have hp := hloc r d hw
      have hlm : ∀ p ∈ (loc r).map (fun i => (i, pbox i)), p.1 ∈ d.map (·.1) ∧ p.2 = pbox p.1 := by
        intro p hpm
        obtain ⟨i, hi, rfl⟩ := List.mem_map.1 hpm
        exact ⟨hp.mem_iff.1 hi, rfl⟩
      obtain ⟨N, m, add, m1, m2, m3, m4, m5⟩ := findInterfaces_ok M h hN hL (hr r) (hnd r) e0 rho tf f3 (omp r) (homp r) ((loc r).map fun i => (i, pbox i))
        (by
          rw [List.map_map]
          have : ((fun p : Nat × Box F => p.1) ∘ fun i => (i, pbox i)) = id := rfl
          rw [this, List.map_id]
          exact hp.nodup_iff.2 (mapOk_nodup (W.maps d hdm)))
        (by
          intro p hpm
          obtain ⟨kv, k1, k2⟩ := List.mem_map.1 (hlm p hpm).1
          have := W.ids d hdm kv k1
          omega) shs 0 [] (by simp [MMOk])
      rw [List.nil_append] at m3
      have hmm : ∀ e ∈ m, e ∈ add := by
        intro e he
        have : e ∈ m.filter fun x => decide (x.1 = e.1) := List.mem_filter.2 ⟨he, by simp⟩
        rw [m3 e.1] at this
        exact List.mem_of_mem_filter this
      have hmd : ∀ S ∈ d.map (·.1), mfind d S = some (mkPart (psOf S)) ∧ (psOf S).length < 2 ^ 32 := by
        intro S hS
        obtain ⟨kv, k1, rfl⟩ := List.mem_map.1 hS
        obtain ⟨q1, q2⟩ := W.data d hdm kv k1
        refine ⟨?_, q2⟩
        rw [← q1]
        exact (mfind_some (W.maps d hdm)).2 k1
      have hsend : ∀ e ∈ m, e.1.1 ∈ d.map (·.1) := by
        intro e he
        obtain ⟨⟨bS, hb⟩, -⟩ := m4 e (hmm e he)
        exact (hlm _ hb).1
      obtain ⟨tab, g, t1, t2, t3, t4, t5⟩ := layers_ok garbage garbageH (order r) (ho r) d psOf m (fun e he => hmd _ (hsend e he))
      refine ⟨g, fun d' hd' => ?_⟩
      cases hd'
      refine ⟨⟨s, ids, tf, m, tab, N, e0, f1, m1, t1, t2⟩, t3, fun e he => ?_, fun S hS R hR => ?_⟩
      · obtain ⟨⟨e', h1, h2⟩, ps, h3, -⟩ := t4 e he
        rw [← h2]
        refine ⟨hsend e' h1, ?_, ps, h3⟩
        rw [hsall]
        exact (W.patch _).2 (m4 e' (hmm e' h1)).2
      · rw [t5, m3]
        obtain ⟨b, hb⟩ := (W.patch R).1 ((hsall R).1 hR)
        have := W.boxes R b hb
        subst this
        rw [m5 S (pbox S) (List.mem_map.2 ⟨S, hp.mem_iff.2 hS, rfl⟩) R _ hb, pairEntry_ghosts]
  choose g hg using hrank
  refine ⟨g, fun r d hd => (hg r d hd).1, fun ser deser hinv hfit => ?_⟩
  have hget : ∀ (r : Nat) l, ((List.range world.length).map g)[r]? = some l → r < world.length ∧ l = g r := by
    intro r l hl
    rw [List.getElem?_map] at hl
    by_cases hlt : r < world.length
    · rw [List.getElem?_range hlt, Option.map_some, Option.some.injEq] at hl
      exact ⟨hlt, hl.symm⟩
    · rw [List.getElem?_eq_none (by rw [List.length_range]; omega)] at hl; cases hl
  have hgm : ∀ l ∈ (List.range world.length).map g, ∃ r < world.length, l = g r := by
    intro l hl
    obtain ⟨r, hr, rfl⟩ := List.mem_map.1 hl
    exact ⟨r, List.mem_range.1 hr, rfl⟩
  have hrs : ∀ r < world.length, ∀ e ∈ g r, rk e.1.1 = r ∧ e.1.1 < u64max ∧ rk e.1.2 < world.length ∧ e.1.2 < u64max := by
    intro r hr e he
    have hw := hsmall r hr
    obtain ⟨h1, h2, -⟩ := (hg r _ hw).2.2.1 e he
    obtain ⟨kv, k1, k2⟩ := List.mem_map.1 h1
    obtain ⟨d', d1, d2⟩ := (hsall _).1 h2
    obtain ⟨kv', q1, q2⟩ := List.mem_map.1 d2
    obtain ⟨r', hr'⟩ := List.mem_iff_getElem?.1 d1
    rw [← k2, ← q2]
    refine ⟨W.own r _ hw kv k1, W.ids _ (List.mem_of_getElem? hw) kv k1, ?_, W.ids d' d1 kv' q1⟩
    rw [W.own r' d' hr' kv' q1]
    exact (List.getElem?_eq_some_iff.1 hr').1
  have hu : u64max < 2 ^ 64 := by decide
  have hsub : ∀ (l : List ((Nat × Nat) × PartData F)), ∀ x ∈ (splitSend rk ser l).2, ∃ e ∈ l, x = (e.1, ser e.2) := by
    intro l x hx
    obtain ⟨a1, a2, a3⟩ := C22_transfer_all (fun a b => decide (rk a = rk b)) l [] (by simp [MMOk])
    unfold splitSend at hx
    simp only at hx
    rw [a1] at hx
    obtain ⟨e, he, rfl⟩ := List.mem_map.1 hx
    exact ⟨e, List.mem_of_mem_filter he, rfl⟩
  have hser := C25_serialize rk mx dev lim buf ser deser ((List.range world.length).map g)
    (fun l hl e he => by
      obtain ⟨r, hr, rfl⟩ := hgm l hl
      exact hinv r hr e he)
    (fun r l hl e he => by
      obtain ⟨hr, rfl⟩ := hget r l hl
      exact (hrs r hr e he).1)
    ⟨by rw [List.length_map]; exact hfit.ranks, hfit.count, fun r l hl e he => by
        rw [List.getElem?_map] at hl
        obtain ⟨l0, h0, rfl⟩ := Option.map_eq_some_iff.1 hl
        obtain ⟨hr, rfl⟩ := hget r l0 h0
        obtain ⟨x, hx, rfl⟩ := hsub _ e he
        exact (hrs r hr x hx).1,
      fun l hl e he => by
        obtain ⟨l0, h0, rfl⟩ := List.mem_map.1 hl
        obtain ⟨r, hr, rfl⟩ := hgm l0 h0
        obtain ⟨x, hx, rfl⟩ := hsub _ e he
        rw [List.length_map, List.length_map, List.length_range]
        exact (hrs r hr x hx).2.2.1,
      fun l hl e he => by
        obtain ⟨l0, h0, rfl⟩ := List.mem_map.1 hl
        obtain ⟨r, hr, rfl⟩ := hgm l0 h0
        obtain ⟨x, hx, rfl⟩ := hsub _ e he
        obtain ⟨-, q1, -, q2⟩ := hrs r hr x hx
        exact ⟨q1.trans hu, q2.trans hu, (hfit.bytes _ h0 x hx).1⟩⟩
    hlim hmx h8 (fun l hl e he => (hfit.bytes l hl e he).2) hfit.alloc
  refine CommDelivers.mono hser.2 fun r _ recv hP d hd => ?_
  have hrlt := (List.getElem?_eq_some_iff.1 hd).1
  have hdm := List.mem_of_getElem? hd
  obtain ⟨j1, j2, j3⟩ := hP (g r) (by rw [List.getElem?_map, List.getElem?_range hrlt]; rfl)
  generalize joinRecv deser recv (splitSend rk ser (g r)).1 = rc at j1 j2 j3 ⊢
  have hrc : ∀ e ∈ rc, ∃ r' < world.length, e ∈ g r' := by
    intro e he
    have := List.mem_of_mem_filter (j2.mem_iff.1 he)
    obtain ⟨l, hl, hel⟩ := List.mem_flatten.1 this
    obtain ⟨r', hr', rfl⟩ := hgm l hl
    exact ⟨r', hr', hel⟩
  -- the ghosts received for one patch
  have hpart : ∀ R ∈ d.map (·.1), (rc.filter fun e => decide (e.1.2 = R)).flatMap (fun e => e.2.parts) =
      ss.flatMap fun S => shs.flatMap (ghostsOf rho (pbox S) (pbox R) S R (psOf S)) := by
    intro R hR
    have hRs : R ∈ ss := (hsall R).2 ⟨d, hdm, hR⟩
    have hrk : rk R = r := by
      obtain ⟨kv, k1, rfl⟩ := List.mem_map.1 hR
      exact W.own r d hd kv k1
    rw [by_sender rc j1 R ss hss (fun e he _ => by
      obtain ⟨r', hr', hel⟩ := hrc e he
      have hw := hsmall r' hr'
      exact (hsall _).2 ⟨_, List.mem_of_getElem? hw, ((hg r' _ hw).2.2.1 e hel).1⟩), List.flatMap_assoc]
    refine List.flatMap_congr fun S hS => ?_
    rw [j3 (S, R)]
    obtain ⟨d', d1, d2⟩ := (hsall S).1 hS
    obtain ⟨r', hr'⟩ := List.mem_iff_getElem?.1 d1
    have hlt' := (List.getElem?_eq_some_iff.1 hr').1
    rw [← (hg r' d' hr').2.2.2 S d2 R hRs]
    congr 1
    rw [List.filter_filter]
    -- only the owner of `S` sends entries of `S`
    have gen : ∀ (n : Nat), n ≤ world.length → ((List.range n).map g).flatten.filter (fun e => decide (e.1 = (S, R)) && decide (rk e.1.2 = r)) =
        if r' < n then (g r').filter fun e => decide (e.1 = (S, R)) else [] := by
      intro n
      induction n with
      | zero => intro _; rfl
      | succ n ih =>
        intro hn
        rw [List.range_succ, List.map_append, List.flatten_append, List.filter_append, ih (by omega)]
        have hlast : (List.map g [n]).flatten = g n := by simp
        rw [hlast]
        by_cases hrn : r' = n
        · subst hrn
          rw [if_neg (Nat.lt_irrefl _), if_pos (Nat.lt_succ_self _), List.nil_append]
          refine List.filter_congr fun e _ => ?_
          by_cases he : e.1 = (S, R)
          · simp [he, hrk]
          · simp [he]
        · have : (g n).filter (fun e => decide (e.1 = (S, R)) && decide (rk e.1.2 = r)) = [] := by
            rw [List.filter_eq_nil_iff]
            intro e he hh
            simp only [Bool.and_eq_true, decide_eq_true_eq] at hh
            have h1 := (hrs n (by omega) e he).1
            rw [hh.1] at h1
            obtain ⟨kv, k1, k2⟩ := List.mem_map.1 d2
            have h2 := W.own r' d' hr' kv k1
            rw [k2] at h2
            exact hrn (h2.symm.trans h1)
          rw [this, List.append_nil]
          by_cases hlt : r' < n
          · rw [if_pos hlt, if_pos (by omega)]
          · rw [if_neg hlt, if_neg (by omega)]
    rw [gen world.length (Nat.le_refl _), if_pos hlt']
  rw [mergePositions_ok rc (fun e he => by
      obtain ⟨r', hr', hel⟩ := hrc e he
      exact ((hg r' _ (hsmall r' hr')).2.2.1 e hel).2.2) psOf d (fun p hp => by
      have hpm : p.1 ∈ d.map (·.1) := List.mem_map_of_mem (f := fun x : Nat × PartData F => x.1) hp
      refine ⟨(W.data d hdm p hp).1, Nat.ne_of_lt (W.ids d hdm p hp), ?_⟩
      rw [hpart p.1 hpm]
      exact hsz p.1 ((hsall _).2 ⟨d, hdm, hpm⟩))]
  congr 1
  refine List.map_congr_left fun p hp => ?_
  rw [hpart p.1 (List.mem_map_of_mem (f := fun x : Nat × PartData F => x.1) (List.mem_of_mem_filter hp))]
  rfl

end
end Shamrock
