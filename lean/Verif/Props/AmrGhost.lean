import Verif.Proof.AmrGhostRank
import Verif.Proof.Exchange
import Verif.Props.SphGhostGeom
import Mathlib.Algebra.Ring.Int.Defs
/-! C60: ghost blocks of the AMR grid. -/
namespace Shamrock.Gz
open Amr (coordX getIndex)

section
variable {F : Type}

/-- The distributed patches: every rank holds the layers of the patches it owns, the patches are those linked to the leaves of the patch tree, `pbox` gives
their boxes, inside the domain, and `recs` their blocks, inside their patch. -/
structure GzWorld (rk : Nat → Nat) (box : PatchCoord → V3 Int × V3 Int) (t : PTree) (sim : Box Int) (ly : GLayout) (pbox : Nat → Box Int) (recs : Nat → List (GRec F))
    (world : List (List (Nat × GLayer F))) : Prop where
  maps : ∀ d ∈ world, MapOk d
  own : ∀ (r : Nat) d, world[r]? = some d → ∀ kv ∈ d, rk kv.1 = r
  ids : ∀ d ∈ world, ∀ kv ∈ d, kv.1 < u64max
  data : ∀ d ∈ world, ∀ kv ∈ d, kv.2 = mkLayer ly (recs kv.1) ∧ ly.Fits (recs kv.1).length
  patch : ∀ R, (∃ d ∈ world, R ∈ d.map (·.1)) ↔ ∃ b, LeafPatch box t R b
  boxes : ∀ R b, LeafPatch box t R b → b = pbox R ∧ Ordered b ∧ InBoxC b sim
  blocks : ∀ d ∈ world, ∀ kv ∈ d, ∀ r ∈ recs kv.1, Ordered r.box ∧ InBoxC r.box (pbox kv.1)

open Classical in
/-- Specification: the ghost blocks of patch `R` made from the blocks of patch `S` in tile `k`: the images of those whose image touches the box of `R`. -/
noncomputable def ghostBlocks [Mul F] [IntCast F] (ly : GLayout) (mode : GMode) (sim : Box Int) (tv : TVec) (pbox : Nat → Box Int) (recs : Nat → List (GRec F)) (S R : Nat)
    (k : V3 Int) : List (GRec F) :=
  if S = R ∧ k = ⟨0, 0, 0⟩ then []
  else ((recs S).filter fun r => decide (ImageTouches mode sim r.box (pbox R) k)).map (GRec.image ly mode sim (turnOf tv k) k)

/-- Specification: blocks of patch `R` followed by its ghost blocks, by increasing sender id, then by tile, then in the order of the sender. -/
noncomputable def mergedBlocks [Mul F] [IntCast F] (ly : GLayout) (mode : GMode) (sim : Box Int) (tv : TVec) (pbox : Nat → Box Int) (recs : Nat → List (GRec F)) (ss : List Nat) (R : Nat) :
    List (GRec F) :=
  recs R ++ ss.flatMap fun S => (tiles mode).flatMap (ghostBlocks ly mode sim tv pbox recs S R)

/-- **C60, content.** For every history of the patch tree, placement of the patches on the ranks, iteration order of roots and patches, schedule of the kernels and
communication schedule: all ranks pass all stages without error, and after the exchange each patch has exactly its own blocks followed by the ghost blocks of
`mergedBlocks`, in that order: the result does not depend on the distribution over ranks. -/
theorem C60_ghosts [Mul F] [IntCast F] (rk : Nat → Nat) {box : PatchCoord → V3 Int × V3 Int} {t : PTree} (h : THist PTree.init t) (hN : BoxNest box t) (hL : LeafLinks t)
    (mode : GMode) (sim : Box Int) (hpos : sim.lower.x < sim.upper.x ∧ sim.lower.y < sim.upper.y ∧ sim.lower.z < sim.upper.z) (he : EvenSides sim) (tv : TVec)
    (ly : GLayout) (hok : ly.Ok) (pbox : Nat → Box Int) (recs : Nat → List (GRec F)) (world : List (List (Nat × GLayer F))) (W : GzWorld rk box t sim ly pbox recs world)
    (ss : List Nat) (hss : ss.Pairwise (· < ·)) (hsall : ∀ R, R ∈ ss ↔ ∃ d ∈ world, R ∈ d.map (·.1))
    (rs : Nat → List Nat) (hr : ∀ r, Enumerates (rs r) t.roots) (hnd : ∀ r, (rs r).Nodup) (loc : Nat → List Nat) (hloc : ∀ (r : Nat) d, world[r]? = some d → (loc r).Perm (d.map (·.1)))
    (boxes : Nat → Nat → Option (Box Int)) (hboxes : ∀ r, ∀ R ∈ ss, boxes r R = some (pbox R)) (j : Nat → Junk F) (o1 o2 o3 : Nat → Nat → Nat → Nat → List Nat)
    (h1 : ∀ r i k, GoodOrder (o1 r i k)) (h2 : ∀ r i k, GoodOrder (o2 r i k)) (h3 : ∀ r i k, GoodOrder (o3 r i k))
    (mx dev lim : Nat) (buf : Bool) (hlim : 0 < lim) (hmx : mx < 2 ^ 31) (h8 : 8 ≤ mx) :
    ∃ g : Nat → List ((Nat × Nat) × GLayer F),
      (∀ (r : Nat) d, world[r]? = some d → ∃ s ids c idx gh N, serBuild box t (rs r) = .ok (s, ids) ∧
        (∀ f, findCandidates mode sim s ids (f + N) (boxes r) (loc r) = some (.ok c)) ∧ findIndices mode sim (j r) (o1 r) (boxes r) d c = .ok idx ∧
        extractGhosts ly (j r) (o2 r) d idx = .ok gh ∧ transformGhosts mode sim tv (o3 r) gh c = .ok (g r)) ∧
      ∀ (ser : GLayer F → List Byte) (deser : List Byte → GLayer F), (∀ r < world.length, ∀ e ∈ g r, deser (ser e.2) = e.2) →
        FitsComm rk mx dev ser ((List.range world.length).map g) →
        CommDelivers rk mx dev lim buf (((List.range world.length).map g).map fun l => (splitSend rk ser l).2) fun r recv => ∀ d, world[r]? = some d →
          fuseGhosts (joinRecv deser recv (splitSend rk ser (g r)).1) d = .ok (d.map fun p => (p.1, mkLayer ly (mergedBlocks ly mode sim tv pbox recs ss p.1))) := by
  have H := h.inv TInv.init
  let G : (Nat × Nat) × V3 Int → List (GRec F) := fun e => (selRecs mode sim pbox recs e).map (GRec.image ly mode sim (turnOf tv e.2) e.2)
  have hrank : ∀ r : Nat, ∃ c : List ((Nat × Nat) × V3 Int), ∀ d, world[r]? = some d → (∃ s ids idx gh N, serBuild box t (rs r) = .ok (s, ids) ∧
        (∀ f, findCandidates mode sim s ids (f + N) (boxes r) (loc r) = some (.ok c)) ∧ findIndices mode sim (j r) (o1 r) (boxes r) d c = .ok idx ∧
        extractGhosts ly (j r) (o2 r) d idx = .ok gh ∧ transformGhosts mode sim tv (o3 r) gh c = .ok (c.map fun e => (e.1, mkLayer ly (G e)))) ∧
      (∀ e ∈ c, e.1.1 ∈ d.map (·.1) ∧ e.1.2 ∈ ss) ∧
      ∀ S ∈ d.map (·.1), ∀ R ∈ ss, c.filter (fun e => decide (e.1 = (S, R))) = (tiles mode).flatMap fun k => candPair (pavOf mode sim) (pbox S) (pbox R) S R k := by
    intro r
    cases hw : world[r]? with
    | none => exact ⟨[], fun d h => by cases h⟩
    | some d =>
      have hdm := List.mem_of_getElem? hw
      obtain ⟨s, ids, K, e0, SO⟩ := serBuild_ok box t H h.lev (rs r) (hr r) (hnd r)
      have hp := hloc r d hw
      have hmem : ∀ S ∈ loc r, S ∈ ss := fun S hS => (hsall S).2 ⟨d, hdm, hp.mem_iff.1 hS⟩
      obtain ⟨N, c, add, c1, c2, c3, c4, c5⟩ := candLoop_ok h hN hL (hr r) (hnd r) e0 (pavOf mode sim) (boxes r) pbox ((tiles mode).flatMap fun k => (loc r).map fun id => (k, id)) []
        (by simp [MMOk]) (fun p hp => by
          obtain ⟨k, -, hp⟩ := List.mem_flatMap.1 hp
          obtain ⟨i, hi, rfl⟩ := List.mem_map.1 hp
          exact hboxes r i (hmem i hi))
      rw [List.nil_append] at c3
      have hcadd : ∀ e ∈ c, e ∈ add := by
        intro e he
        have : e ∈ c.filter fun x => decide (x.1 = e.1) := List.mem_filter.2 ⟨he, by simp⟩
        rw [c3 e.1] at this
        exact List.mem_of_mem_filter this
      have hce : ∀ e ∈ c, e.1.1 ∈ d.map (·.1) ∧ e.1.2 ∈ ss := by
        intro e he
        obtain ⟨q1, q2⟩ := c4 e (hcadd e he)
        obtain ⟨p, hp1, hp2⟩ := List.mem_map.1 q1
        obtain ⟨k, -, hp1⟩ := List.mem_flatMap.1 hp1
        obtain ⟨i, hi, rfl⟩ := List.mem_map.1 hp1
        dsimp only at hp2
        rw [← hp2]
        exact ⟨hp.mem_iff.1 hi, (hsall _).2 ((W.patch _).2 q2)⟩
      obtain ⟨idx, gh, i1, i2, i3⟩ := stages_ok ly hok mode sim hpos he tv (j r) (o1 r) (o2 r) (o3 r) (h1 r) (h2 r) (h3 r) (boxes r) pbox recs d c c2 (fun e hem => by
        obtain ⟨q1, q2⟩ := hce e hem
        obtain ⟨kv, k1, k2⟩ := List.mem_map.1 q1
        obtain ⟨w1, w2⟩ := W.data d hdm kv k1
        rw [← k2]
        refine ⟨?_, w2, fun x hx => (W.blocks d hdm kv k1 x hx).1, hboxes r _ q2⟩
        rw [← w1]
        exact (mfind_some (W.maps d hdm)).2 k1)
      refine ⟨c, fun d' hd' => ?_⟩
      cases hd'
      refine ⟨⟨s, ids, idx, gh, N, e0, fun f => ?_, i1, i2, i3⟩, hce, fun S hS R hR => ?_⟩
      · unfold findCandidates
        rw [(getPaving_ok mode sim hpos).1 he]
        exact c1 f
      · obtain ⟨b, hb⟩ := (W.patch R).1 ((hsall R).1 hR)
        rw [c3 (S, R), c5 S R b hb, (W.boxes R b hb).1, pairs_of _ _ (hp.nodup_iff.2 (mapOk_nodup (W.maps d hdm))) S (hp.mem_iff.2 hS), List.flatMap_map]
  choose c hc using hrank
  refine ⟨fun r => (c r).map fun e => (e.1, mkLayer ly (G e)), fun r d hd => ?_, fun ser deser hinv hfit => ?_⟩
  · obtain ⟨⟨s, ids, idx, gh, N, q⟩, -⟩ := hc r d hd
    exact ⟨s, ids, c r, idx, gh, N, q⟩
  have hwr : ∀ r < world.length, world[r]? = some (world[r]?.getD []) := by
    intro r hr
    rw [List.getElem?_eq_getElem hr]; rfl
  have hssr : ∀ S ∈ ss, ∃ d, world[rk S]? = some d ∧ S ∈ d.map (·.1) ∧ S < u64max := by
    intro S hS
    obtain ⟨d, d1, d2⟩ := (hsall S).1 hS
    obtain ⟨r', hr'⟩ := List.mem_iff_getElem?.1 d1
    obtain ⟨kv, k1, k2⟩ := List.mem_map.1 d2
    have := W.own r' d hr' kv k1
    rw [k2] at this
    exact ⟨d, by rw [this]; exact hr', d2, by rw [← k2]; exact W.ids d d1 kv k1⟩
  refine CommDelivers.mono (exchange_ok rk world.length _ (fun r hr e he => ?_) mx dev lim buf hlim hmx h8 ser deser hinv hfit) fun r _ recv hP d hd => ?_
  · obtain ⟨e', he', rfl⟩ := List.mem_map.1 he
    obtain ⟨q1, q2⟩ := (hc r _ (hwr r hr)).2.1 e' he'
    obtain ⟨d1, a1, a2, a3⟩ := hssr _ q2
    obtain ⟨kv, k1, k2⟩ := List.mem_map.1 q1
    dsimp only
    have b1 := W.own r _ (hwr r hr) kv k1
    have b2 := W.ids _ (List.mem_of_getElem? (hwr r hr)) kv k1
    rw [k2] at b1 b2
    exact ⟨b1, b2, (List.getElem?_eq_some_iff.1 a1).1, a3⟩
  · have hrlt := (List.getElem?_eq_some_iff.1 hd).1
    have hdm := List.mem_of_getElem? hd
    obtain ⟨j1, j2, j3⟩ := hP hrlt
    generalize joinRecv deser recv (splitSend rk ser ((c r).map fun e => (e.1, mkLayer ly (G e)))).1 = rc at j1 j2 j3 ⊢
    have hrc : ∀ e ∈ rc, e.1.1 ∈ ss ∧ e.1.2 ∈ ss ∧ rk e.1.2 = r := by
      intro e he
      obtain ⟨q1, r', hr', q2⟩ := j2 e he
      obtain ⟨e', he', rfl⟩ := List.mem_map.1 q2
      obtain ⟨q3, q4⟩ := (hc r' _ (hwr r' hr')).2.1 e' he'
      exact ⟨(hsall _).2 ⟨_, List.mem_of_getElem? (hwr r' hr'), q3⟩, q4, q1⟩
    rw [fuse_ok ly rc d recs (fun R => ss.flatMap fun S => ((tiles mode).flatMap fun k => candPair (pavOf mode sim) (pbox S) (pbox R) S R k).map G)
      (fun p hp => (W.data d hdm p hp).1)
      (fun e he => by
        obtain ⟨-, q1, q2⟩ := hrc e he
        obtain ⟨d', a1, a2, -⟩ := hssr _ q1
        rw [q2, hd, Option.some.injEq] at a1
        rw [a1]; exact a2)
      (fun R hR => by
        have hrk : rk R = r := by
          obtain ⟨kv, k1, rfl⟩ := List.mem_map.1 hR
          exact W.own r d hd kv k1
        have hRs : R ∈ ss := (hsall R).2 ⟨d, hdm, hR⟩
        rw [by_sender rc j1 R ss hss (fun e he _ => (hrc e he).1), List.map_flatMap, List.map_flatMap]
        refine List.flatMap_congr fun S hS => ?_
        obtain ⟨d', a1, a2, -⟩ := hssr S hS
        rw [j3 S R hrk (List.getElem?_eq_some_iff.1 a1).1, List.filter_map, List.map_map, List.map_map, ← (hc _ d' a1).2.2 S a2 R hRs]
        rfl)]
    congr 1
    refine List.map_congr_left fun p hp => ?_
    have hpm : p.1 ∈ d.map (·.1) := List.mem_map_of_mem (f := fun x : Nat × GLayer F => x.1) hp
    obtain ⟨bR, hbR⟩ := (W.patch p.1).1 ⟨d, hdm, hpm⟩
    obtain ⟨-, oR, -⟩ := W.boxes _ _ hbR
    rw [(W.boxes _ _ hbR).1] at oR
    congr 2
    unfold mergedBlocks
    congr 1
    rw [← List.flatMap_id, List.flatMap_assoc]
    refine List.flatMap_congr fun S hS => ?_
    obtain ⟨d', a1, a2, -⟩ := hssr S hS
    have hd'm := List.mem_of_getElem? a1
    obtain ⟨bS, hbS⟩ := (W.patch S).1 ⟨d', hd'm, a2⟩
    obtain ⟨-, oS, -⟩ := W.boxes _ _ hbS
    rw [(W.boxes _ _ hbS).1] at oS
    obtain ⟨kv, k1, k2⟩ := List.mem_map.1 a2
    have hblk := W.blocks d' hd'm kv k1
    rw [k2] at hblk
    rw [List.flatMap_id, ← List.flatMap_def, List.flatMap_assoc]
    refine List.flatMap_congr fun k _ => ?_
    unfold candPair ghostBlocks
    by_cases hz : S = p.1 ∧ k = ⟨0, 0, 0⟩
    · rw [if_pos (Or.inl hz), if_pos hz]; rfl
    · rw [if_neg hz]
      have hsel : selRecs mode sim pbox recs ((S, p.1), k) = (recs S).filter fun r => @decide (ImageTouches mode sim r.box (pbox p.1) k) (Classical.propDecidable _) := by
        unfold selRecs
        refine List.filter_congr fun x hx => ?_
        have := fBoxInv_touch mode sim he x.box (pbox p.1) (hblk x hx).1 oR k
        by_cases ht : ImageTouches mode sim x.box (pbox p.1) k
        · rw [this.2 ht]; simp [ht]
        · rw [Bool.eq_false_iff.2 (fun hh => ht (this.1 hh))]; simp [ht]
      by_cases ht : ((pbox p.1).intersect ((pavOf mode sim).fBox (pbox S) k)).isNotEmpty = true
      · rw [if_neg (by rintro (hh | hh); exacts [hz hh, by rw [ht] at hh; cases hh]), List.flatMap_singleton]
        show (selRecs mode sim pbox recs ((S, p.1), k)).map _ = _
        rw [hsel]
      · rw [if_pos (Or.inr (by simpa using ht)), List.flatMap_nil]
        symm
        rw [List.map_eq_nil_iff, List.filter_eq_nil_iff]
        intro x hx hh
        simp only [decide_eq_true_eq] at hh
        obtain ⟨v, v1, v2⟩ := hh
        exact ht ((fBox_touch mode sim he (pbox S) (pbox p.1) oS oR k).2 ⟨v, v1.mono (hblk x hx).2, v2⟩)

/-- Specification: the tiles considered on an axis. -/
def AxisOpen (g : GhostType) (i : Int) : Prop := g = .none → i = 0

/-- **C60, which ghosts.** For all patches, blocks and boundary conditions: the ghosts of patch `R` are, each once, the images of the blocks of all patches, in
any tile of the plane (only tile 0 along an axis without ghosts), that touch the closed box of `R`, except the blocks of `R` themselves. -/
theorem C60_images [Mul F] [IntCast F] (ly : GLayout) (mode : GMode) (sim : Box Int) (hpos : sim.lower.x < sim.upper.x ∧ sim.lower.y < sim.upper.y ∧ sim.lower.z < sim.upper.z)
    (tv : TVec) (pbox : Nat → Box Int) (recs : Nat → List (GRec F)) (ss : List Nat) (hss : ss.Nodup) (R : Nat) (hR : InBoxC (pbox R) sim)
    (hrec : ∀ S ∈ ss, ∀ r ∈ recs S, InBoxC r.box sim) :
    ∃ labels : List (Nat × Nat × V3 Int), labels.Nodup ∧
      (∀ S i k, (S, i, k) ∈ labels ↔ S ∈ ss ∧ ¬ (S = R ∧ k = ⟨0, 0, 0⟩) ∧ (AxisOpen mode.x k.x ∧ AxisOpen mode.y k.y ∧ AxisOpen mode.z k.z) ∧
        ∃ r, (recs S)[i]? = some r ∧ ImageTouches mode sim r.box (pbox R) k) ∧
      mergedBlocks ly mode sim tv pbox recs ss R = recs R ++ labels.filterMap fun l => ((recs l.1)[l.2.1]?).map (GRec.image ly mode sim (turnOf tv l.2.2) l.2.2) := by
  classical
  let lab : Nat → V3 Int → List (Nat × Nat × V3 Int) := fun S k =>
    if S = R ∧ k = ⟨0, 0, 0⟩ then [] else (selIdx (fun r : GRec F => decide (ImageTouches mode sim r.box (pbox R) k)) (recs S)).map fun i => (S, i, k)
  have hlab : ∀ S k l, l ∈ lab S k ↔ ¬ (S = R ∧ k = ⟨0, 0, 0⟩) ∧ ∃ i, l = (S, i, k) ∧ ∃ r, (recs S)[i]? = some r ∧ ImageTouches mode sim r.box (pbox R) k := by
    intro S k l
    show l ∈ (if S = R ∧ k = ⟨0, 0, 0⟩ then [] else _) ↔ _
    split
    · rename_i hz
      exact ⟨fun h => absurd h List.not_mem_nil, fun h => absurd hz h.1⟩
    · rename_i hz
      rw [List.mem_map]
      constructor
      · rintro ⟨i, hi, rfl⟩
        refine ⟨hz, i, rfl, ?_⟩
        obtain ⟨h1, h2⟩ := List.mem_filter.1 hi
        have h1 := List.mem_range.1 h1
        rw [List.getElem?_eq_getElem h1, Option.map_some, Option.getD_some, decide_eq_true_eq] at h2
        exact ⟨_, List.getElem?_eq_getElem h1, h2⟩
      · rintro ⟨-, i, rfl, r, hr, ht⟩
        refine ⟨i, List.mem_filter.2 ⟨List.mem_range.2 (List.getElem?_eq_some_iff.1 hr).1, ?_⟩, rfl⟩
        rw [hr, Option.map_some, Option.getD_some]
        exact decide_eq_true ht
  have hrep : ∀ g : GhostType, 0 ≤ rep g := by intro g; unfold rep; split <;> omega
  have htile : ∀ k, k ∈ tiles mode ↔ (-rep mode.x ≤ k.x ∧ k.x ≤ rep mode.x) ∧ (-rep mode.y ≤ k.y ∧ k.y ≤ rep mode.y) ∧ (-rep mode.z ≤ k.z ∧ k.z ≤ rep mode.z) :=
    fun k => mem_offsets3 _ _ _ (hrep _) (hrep _) (hrep _) k
  have hopen : ∀ g i, (-rep g ≤ i ∧ i ≤ rep g) ↔ AxisOpen g i ∧ (-1 ≤ i ∧ i ≤ 1) := by
    intro g i
    unfold rep AxisOpen
    cases g <;> simp <;> omega
  refine ⟨ss.flatMap fun S => (tiles mode).flatMap (lab S), ?_, fun S i k => ?_, ?_⟩
  · rw [List.nodup_flatMap]
    refine ⟨fun S _ => ?_, hss.imp fun {a b} hab => ?_⟩
    · rw [List.nodup_flatMap]
      refine ⟨fun k _ => ?_, (offsets3_nodup _ _ _).imp fun {a b} hab => ?_⟩
      · show (if S = R ∧ k = ⟨0, 0, 0⟩ then [] else _ : List _).Nodup
        split
        · exact List.nodup_nil
        · exact List.Nodup.map (fun a b h => by simpa using h) (List.nodup_range.filter _)
      · intro l h1 h2
        obtain ⟨-, i, rfl, -⟩ := (hlab S a l).1 h1
        obtain ⟨-, i', e, -⟩ := (hlab S b _).1 h2
        simp only [Prod.mk.injEq] at e
        exact hab e.2.2
    · intro l h1 h2
      obtain ⟨k, -, h1⟩ := List.mem_flatMap.1 h1
      obtain ⟨k', -, h2⟩ := List.mem_flatMap.1 h2
      obtain ⟨-, i, rfl, -⟩ := (hlab a k l).1 h1
      obtain ⟨-, i', e, -⟩ := (hlab b k' _).1 h2
      simp only [Prod.mk.injEq] at e
      exact hab e.1
  · rw [List.mem_flatMap]
    constructor
    · rintro ⟨S', hS', h⟩
      obtain ⟨k', hk', h⟩ := List.mem_flatMap.1 h
      obtain ⟨h1, i', e, h2⟩ := (hlab S' k' _).1 h
      simp only [Prod.mk.injEq] at e
      obtain ⟨rfl, rfl, rfl⟩ := e
      obtain ⟨q1, q2, q3⟩ := (htile k).1 hk'
      exact ⟨hS', h1, ⟨((hopen _ _).1 q1).1, ((hopen _ _).1 q2).1, ((hopen _ _).1 q3).1⟩, h2⟩
    · rintro ⟨hS, hz, ⟨a1, a2, a3⟩, r, hr, ht⟩
      refine ⟨S, hS, List.mem_flatMap.2 ⟨k, (htile k).2 ?_, (hlab S k _).2 ⟨hz, i, rfl, r, hr, ht⟩⟩⟩
      obtain ⟨v, v1, v2⟩ := ht
      obtain ⟨s1, s2, s3⟩ := v1.mono (hrec S hS r (List.mem_of_getElem? hr))
      obtain ⟨t1, t2, t3⟩ := v2.mono hR
      exact ⟨(hopen _ _).2 ⟨a1, axis_near _ _ _ _ _ hpos.1 s1 t1⟩, (hopen _ _).2 ⟨a2, axis_near _ _ _ _ _ hpos.2.1 s2 t2⟩, (hopen _ _).2 ⟨a3, axis_near _ _ _ _ _ hpos.2.2 s3 t3⟩⟩
  · unfold mergedBlocks
    congr 1
    rw [List.filterMap_flatMap]
    refine List.flatMap_congr fun S _ => ?_
    rw [List.filterMap_flatMap]
    refine List.flatMap_congr fun k _ => ?_
    show ghostBlocks ly mode sim tv pbox recs S R k = List.filterMap _ (if S = R ∧ k = ⟨0, 0, 0⟩ then [] else _)
    unfold ghostBlocks
    split
    · rfl
    · rw [List.filterMap_map, ← selIdx_values, List.map_filterMap]
      rfl

/-- **C60, geometry of the cells.** In every tile, cell number `flipCell c` of the image of a block is the image of cell number `c` of the block, and the block
covers the image of the block. -/
theorem C60_cells (mode : GMode) (sim : Box Int) (k : V3 Int) (b : Box Int) (hb : Ordered b) (h2 : EvenSides b) (c : Nat) (hc : c < 8) :
    flipCell (signs mode k) c < 8 ∧ (∀ v, InClosed b v ↔ InClosed (imageBox mode sim b k) (image mode sim v k)) ∧
    ∀ v, InClosed (blockCell b c) v ↔ InClosed (blockCell (imageBox mode sim b k) (flipCell (signs mode k) c)) (image mode sim v k) := by
  have g1 : (coordX c).1 < 2 := by unfold coordX; dsimp only; omega
  have g2 : (coordX c).2.1 < 2 := by unfold coordX; dsimp only; omega
  have g3 : (coordX c).2.2 < 2 := by unfold coordX; dsimp only; omega
  have e : coordX (flipCell (signs mode k) c) = (flip1 (axisSign mode.x k.x) (coordX c).1, flip1 (axisSign mode.y k.y) (coordX c).2.1, flip1 (axisSign mode.z k.z) (coordX c).2.2) := by
    unfold flipCell
    exact coordX_getIndex _ _ _ (flip1_lt _ _ g1) (flip1_lt _ _ g2)
  have genB : ∀ (g : GhostType) (l u a b i x : Int), a ≤ b → ((a ≤ x ∧ x ≤ b) ↔ ((axisBox g l u a b i).1 ≤ axisImage g l u x i ∧ axisImage g l u x i ≤ (axisBox g l u a b i).2)) := by
    intro g l u a b i x hab
    unfold axisBox
    rw [axisImage_lin g l u a, axisImage_lin g l u b, axisImage_lin g l u x]
    generalize axisImage g l u 0 i = t
    rcases axisSign_or g i with hs | hs <;> rw [hs] <;> simp <;> omega
  have genC : ∀ (g : GhostType) (l u a b i x : Int) (m : Nat), a ≤ b → (b - a) % 2 = 0 → m < 2 →
      ((a + m * ((b - a) / 2) ≤ x ∧ x ≤ a + (m + 1) * ((b - a) / 2)) ↔
        ((axisBox g l u a b i).1 + (flip1 (axisSign g i) m) * (((axisBox g l u a b i).2 - (axisBox g l u a b i).1) / 2) ≤ axisImage g l u x i ∧
          axisImage g l u x i ≤ (axisBox g l u a b i).1 + ((flip1 (axisSign g i) m) + 1) * (((axisBox g l u a b i).2 - (axisBox g l u a b i).1) / 2))) := by
    intro g l u a b i x m hab hev hm
    unfold axisBox flip1
    rw [axisImage_lin g l u a, axisImage_lin g l u b, axisImage_lin g l u x]
    generalize axisImage g l u 0 i = t
    obtain rfl | rfl : m = 0 ∨ m = 1 := by omega
    · rcases axisSign_or g i with hs | hs <;> rw [hs] <;> simp <;> omega
    · rcases axisSign_or g i with hs | hs <;> rw [hs] <;> simp <;> omega
  obtain ⟨b1, b2, b3⟩ := hb
  obtain ⟨p1, p2, p3⟩ := h2
  refine ⟨flipCell_lt _ c hc, fun v => ?_, fun v => ?_⟩
  · unfold InClosed imageBox image
    dsimp only
    rw [genB mode.x sim.lower.x sim.upper.x _ _ k.x v.x b1, genB mode.y sim.lower.y sim.upper.y _ _ k.y v.y b2, genB mode.z sim.lower.z sim.upper.z _ _ k.z v.z b3]
  · unfold InClosed blockCell
    rw [e]
    unfold imageBox image
    dsimp only
    rw [genC mode.x sim.lower.x sim.upper.x _ _ k.x v.x _ b1 p1 g1, genC mode.y sim.lower.y sim.upper.y _ _ k.y v.y _ b2 p2 g2, genC mode.z sim.lower.z sim.upper.z _ _ k.z v.z _ b3 p3 g3]

/-- Component wise product with signs. -/
def signed [Ring F] (s : V3 Int) (v : V3 F) : V3 F := ⟨if s.x = 1 then v.x else -v.x, if s.y = 1 then v.y else -v.y, if s.z = 1 then v.z else -v.z⟩

/-- **C60, values.** In the image of a block, cell `flipCell c` has the values of cell `c`, for each of the `m` values per cell of a scalar field; the vectors are
those of cell `c` with the components along the reversed axes negated if no axis is an outflow axis. -/
theorem C60_values [Ring F] (ly : GLayout) (mode : GMode) (sim : Box Int) (k : V3 Int) (r : GRec F) (c : Nat) (hc : c < 8) (m v : Nat) (hv : v < m) (q : Nat) :
    (ly.scal[q]? = some (8 * m) → ∀ turn, (r.image ly mode sim turn k).scal q (flipCell (signs mode k) c * m + v) = r.scal q (c * m + v)) ∧
    (ly.vecs[q]? = some (8 * m) → (r.image ly mode sim (turnOf ⟨true, true, true⟩ k) k).vecs q (flipCell (signs mode k) c * m + v) = signed (signs mode k) (r.vecs q (c * m + v))) := by
  have hre : reidx (signs mode k) (8 * m) (flipCell (signs mode k) c * m + v) = c * m + v := by
    have hm : 0 < m := by omega
    have e1 : (flipCell (signs mode k) c * m + v) / m = flipCell (signs mode k) c := by
      rw [Nat.mul_comm, Nat.mul_add_div hm, Nat.div_eq_of_lt hv, Nat.add_zero]
    have e2 : (flipCell (signs mode k) c * m + v) % m = v := by rw [Nat.mul_comm, Nat.mul_add_mod, Nat.mod_eq_of_lt hv]
    unfold reidx
    rw [if_neg (by omega), Nat.mul_div_cancel_left _ (by omega : 0 < 8), e1, e2, flipCell_flipCell _ c hc]
  have hmul : ∀ (s : V3 Int) (w : V3 F), (s.x = 1 ∨ s.x = -1) → (s.y = 1 ∨ s.y = -1) → (s.z = 1 ∨ s.z = -1) → mulCompo s w = signed s w := by
    intro s w h1 h2 h3
    unfold mulCompo signed
    rcases h1 with h1 | h1 <;> rcases h2 with h2 | h2 <;> rcases h3 with h3 | h3 <;> rw [h1, h2, h3] <;> simp
  refine ⟨fun h turn => ?_, fun h => ?_⟩
  · show r.scal q (reidx _ (ly.scal.getD q 1) _) = _
    rw [List.getD_eq_getElem?_getD, h]
    show r.scal q (reidx _ (8 * m) _) = _
    rw [hre]
  · show (if turnOf ⟨true, true, true⟩ k = true then mulCompo (signs mode k) (r.vecs q (reidx _ (ly.vecs.getD q 1) _)) else r.vecs q (reidx _ (ly.vecs.getD q 1) _)) = _
    rw [List.getD_eq_getElem?_getD, h]
    show (if turnOf ⟨true, true, true⟩ k = true then mulCompo (signs mode k) (r.vecs q (reidx _ (8 * m) _)) else r.vecs q (reidx _ (8 * m) _)) = _
    rw [hre]
    by_cases ht : turnOf ⟨true, true, true⟩ k = true
    · rw [if_pos ht]
      exact hmul _ _ (axisSign_or _ _) (axisSign_or _ _) (axisSign_or _ _)
    · rw [if_neg ht]
      have hk : k.x = 0 ∧ k.y = 0 ∧ k.z = 0 := by
        unfold turnOf at ht
        simp only [and_true, decide_eq_true_eq] at ht
        omega
      unfold signed signs axisSign
      simp [hk]

/-- **C60, when it fails.** With non degenerate domain, the ghost stages throw exactly if a side of the domain has an odd length. -/
theorem C60_even (mode : GMode) (sim : Box Int) (hpos : sim.lower.x < sim.upper.x ∧ sim.lower.y < sim.upper.y ∧ sim.lower.z < sim.upper.z)
    (s : SSt Int) (roots : List Nat) (fuel : Nat) (boxes : Nat → Option (Box Int)) (locals : List Nat) (h : ¬ EvenSides sim) :
    findCandidates mode sim s roots fuel boxes locals = some .throws := by
  unfold findCandidates
  rw [(getPaving_ok mode sim hpos).2 h]

/-- **C60, limit.** Outflow along `x` and periodic along `y`: the ghost across the `x` face alone keeps its velocity (zero gradient), the ghost in the corner
tile, whose only other displacement is a periodic copy, has its `x` velocity reversed. -/
theorem C60_outflow_defect (ly : GLayout) (sim : Box Int) (r : GRec Int) (q v : Nat) (hq : ly.vecs[q]? = some 8) (hv : v < 8) (hne : (r.vecs q v).x ≠ 0) :
    let mode := modeOf .outflow .periodic .periodic
    let tv := tvecOf .outflow .periodic .periodic
    (r.image ly mode sim (turnOf tv ⟨1, 0, 0⟩) ⟨1, 0, 0⟩).vecs q (flipCell (signs mode ⟨1, 0, 0⟩) v) = r.vecs q v ∧
    (r.image ly mode sim (turnOf tv ⟨1, 1, 0⟩) ⟨1, 1, 0⟩).vecs q (flipCell (signs mode ⟨1, 1, 0⟩) v) ≠ r.vecs q v := by
  dsimp only
  have hs : ∀ k : V3 Int, reidx (signs (modeOf .outflow .periodic .periodic) k) 8 (flipCell (signs (modeOf .outflow .periodic .periodic) k) v) = v := by
    intro k
    unfold reidx
    rw [if_neg (by decide)]
    show flipCell _ (flipCell _ v / 1) * 1 + flipCell _ v % 1 = v
    rw [Nat.div_one, Nat.mod_one, flipCell_flipCell _ v hv]
    omega
  constructor
  · show r.vecs q (reidx _ (ly.vecs.getD q 1) _) = _
    rw [List.getD_eq_getElem?_getD, hq]
    show r.vecs q (reidx _ 8 _) = _
    rw [hs]
  · show mulCompo _ (r.vecs q (reidx _ (ly.vecs.getD q 1) _)) ≠ _
    rw [List.getD_eq_getElem?_getD, hq]
    show mulCompo _ (r.vecs q (reidx _ 8 _)) ≠ _
    rw [hs]
    intro hh
    have : (mulCompo (signs (modeOf .outflow .periodic .periodic) ⟨1, 1, 0⟩) (r.vecs q v)).x = (r.vecs q v).x := by rw [hh]
    have h2 : (r.vecs q v).x * (-1 : Int) = (r.vecs q v).x := this
    omega

end
end Shamrock.Gz
