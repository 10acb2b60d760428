import Verif.Props.AmrGhost
import Verif.Props.SphGhostEx
/-! C60: witnesses. -/
namespace Shamrock.Gz
open Amr (coordX getIndex)

deriving instance DecidableEq for GLayer

def gzSim : Box Int := ⟨⟨-5, 0, 0⟩, ⟨11, 8, 8⟩⟩
def gzMode : GMode := modeOf .reflective .periodic .outflow
def gzTv : TVec := tvecOf .reflective .periodic .outflow
def gzLy : GLayout := ⟨[8, 1], [8]⟩
def gzRecs (R : Nat) : List (GRec Int) :=
  if R = 100 then [⟨⟨-5, 0, 0⟩, ⟨3, 8, 8⟩, fun q v => if q = 0 then 10 + v else 7, fun _ v => ⟨(v : Int) + 1, 2, 3⟩⟩]
  else if R = 17 then [⟨⟨7, 4, 4⟩, ⟨9, 6, 6⟩, fun q v => if q = 0 then 20 + v else 8, fun _ v => ⟨-1, v, 5⟩⟩, ⟨⟨9, 6, 6⟩, ⟨11, 8, 8⟩, fun q v => if q = 0 then 30 + v else 8, fun _ v => ⟨-1, v, 4⟩⟩]
  else []
def gzWorld : List (List (Nat × GLayer Int)) := [[10, 12, 14, 16, 100], [11, 13, 15, 17]].map fun l => l.map fun i => (i, mkLayer gzLy (gzRecs i))
def gzJunk : Junk Int := ⟨fun _ => ⟨9, 9, 9⟩, fun _ => 9, fun _ => ⟨9, 9, 9⟩, fun _ => 9, fun _ => 9⟩
/-- What rank `r` sends, one schedule. -/
def gzRun (r : Nat) : Option (List ((Nat × Nat) × GLayer Int)) :=
  match serBuild sgBox sgTree [0, 1] with
  | .ok (s, ids) => match findCandidates gzMode gzSim s ids 100 (fun R => some (sgPbox R)) (((gzWorld[r]?).getD []).map (·.1)) with
    | some (.ok c) => match (findIndices gzMode gzSim gzJunk (fun _ _ => List.range) (fun R => some (sgPbox R)) ((gzWorld[r]?).getD []) c).bind fun idx =>
        (extractGhosts gzLy gzJunk (fun _ _ => List.range) ((gzWorld[r]?).getD []) idx).bind fun gh => transformGhosts gzMode gzSim gzTv (fun _ _ => List.range) gh c with
      | .ok l => some l
      | _ => none
    | _ => none
  | _ => none
def vBytes (v : V3 Int) : List Byte := [BitVec.ofInt 8 v.x, BitVec.ofInt 8 v.y, BitVec.ofInt 8 v.z]
def vOf : List Byte → List (V3 Int)
  | x :: y :: z :: r => ⟨x.toInt, y.toInt, z.toInt⟩ :: vOf r
  | _ => []
def gzEnc (l : GLayer Int) : List Byte :=
  BitVec.ofNat 8 l.bmin.buf.length :: (l.bmin.buf.flatMap vBytes ++ l.bmax.buf.flatMap vBytes ++ (l.scal.flatMap fun f => f.buf.map (BitVec.ofInt 8)) ++ l.vecs.flatMap fun f => f.buf.flatMap vBytes)
def gzDec : List Byte → GLayer Int
  | [] => newLayer gzLy
  | n :: b => ⟨⟨1, vOf (b.take (3 * n.toNat))⟩, ⟨1, vOf ((b.drop (3 * n.toNat)).take (3 * n.toNat))⟩,
      [⟨8, ((b.drop (6 * n.toNat)).take (8 * n.toNat)).map (·.toInt)⟩, ⟨1, ((b.drop (14 * n.toNat)).take n.toNat).map (·.toInt)⟩], [⟨8, vOf (b.drop (15 * n.toNat))⟩]⟩
def gzSent (r : Nat) : List ((Nat × Nat) × GLayer Int) := (gzRun r).getD []

theorem gz_mem (R : Nat) : (∃ d ∈ gzWorld, R ∈ d.map (·.1)) ↔ R ∈ sgSs := by
  simp only [gzWorld, List.map_cons, List.map_nil, List.mem_cons, List.not_mem_nil, or_false, exists_eq_or_imp, exists_eq_left, sgSs]
  omega

theorem gz_world : GzWorld sgRk sgBox sgTree gzSim gzLy sgPbox gzRecs gzWorld := by
  have hlen : ∀ R, (gzRecs R).length ≤ 2 := by
    intro R
    unfold gzRecs
    split
    · simp
    · split <;> simp
  have hblk : ∀ R ∈ sgSs, ∀ r ∈ gzRecs R, Ordered r.box ∧ InBoxC r.box (sgPbox R) := by
    unfold Ordered InBoxC
    decide +kernel
  have hbox : ∀ R ∈ sgSs, Ordered (sgPbox R) ∧ InBoxC (sgPbox R) gzSim := by
    unfold Ordered InBoxC
    decide +kernel
  refine ⟨?_, ?_, ?_, ?_, fun R => ?_, fun R b hR => ?_, ?_⟩
  · intro d hd
    simp only [gzWorld, List.map_cons, List.map_nil, List.mem_cons, List.not_mem_nil, or_false] at hd
    rcases hd with rfl | rfl <;> simp [MapOk]
  · intro r d hr kv hkv
    match r, hr with
    | 0, hr => cases hr; simp only [List.map_cons, List.map_nil, List.mem_cons, List.not_mem_nil, or_false] at hkv; rcases hkv with rfl | rfl | rfl | rfl | rfl <;> rfl
    | 1, hr => cases hr; simp only [List.map_cons, List.map_nil, List.mem_cons, List.not_mem_nil, or_false] at hkv; rcases hkv with rfl | rfl | rfl | rfl <;> rfl
  · intro d hd kv hkv
    have hk : ∀ i ∈ ([[10, 12, 14, 16, 100], [11, 13, 15, 17]] : List (List Nat)).flatten, i < u64max := by decide
    obtain ⟨l, hl, rfl⟩ := List.mem_map.1 hd
    obtain ⟨i, hi, rfl⟩ := List.mem_map.1 hkv
    exact hk i (List.mem_flatten.2 ⟨l, hl, hi⟩)
  · intro d hd kv hkv
    obtain ⟨l, hl, rfl⟩ := List.mem_map.1 hd
    obtain ⟨i, hi, rfl⟩ := List.mem_map.1 hkv
    refine ⟨rfl, ?_, fun n hn => ?_⟩
    · have := hlen i
      show (gzRecs i).length < _
      omega
    · have := hlen i
      have hn : n = 8 ∨ n = 1 := by simp [gzLy] at hn; omega
      show (gzRecs i).length * n < _
      rcases hn with rfl | rfl <;> omega
  · rw [gz_mem, ← sg_world.patch]
    simp only [sgWorld, List.map_cons, List.map_nil, List.mem_cons, List.not_mem_nil, or_false, exists_eq_or_imp, exists_eq_left, sgSs]
    omega
  · have h1 := sg_world.boxes R b hR
    have h2 : R ∈ sgSs := by
      have := (sg_world.patch R).2 ⟨b, hR⟩
      simp only [sgWorld, List.map_cons, List.map_nil, List.mem_cons, List.not_mem_nil, or_false, exists_eq_or_imp, exists_eq_left] at this
      simp only [sgSs, List.mem_cons, List.not_mem_nil, or_false]
      omega
    rw [h1]
    exact ⟨rfl, hbox R h2⟩
  · intro d hd kv hkv
    exact hblk kv.1 ((gz_mem kv.1).1 ⟨d, hd, List.mem_map_of_mem (f := fun x : Nat × GLayer Int => x.1) hkv⟩)

def gzShow (e : (Nat × Nat) × GLayer Int) : List (List Int) :=
  [e.2.bmin.buf.flatMap fun v => [v.x, v.y, v.z], e.2.scal.flatMap fun f => f.buf, e.2.vecs.flatMap fun f => f.buf.flatMap fun v => [v.x, v.y, v.z]]

theorem gz_sent0 : (gzRun 0).map (·.length) = some 127 := by decide +kernel
theorem gz_sent1 : (gzRun 1).map (fun l => (l.filter fun e => decide (e.1 = (17, 17) ∧ e.2.bmin.buf ≠ [])).map gzShow) = some
    [[[9, 6, 8], [34, 35, 36, 37, 30, 31, 32, 33, 8], [-1, 4, 4, -1, 5, 4, -1, 6, 4, -1, 7, 4, -1, 0, 4, -1, 1, 4, -1, 2, 4, -1, 3, 4]],
     [[11, 6, 6], [31, 30, 33, 32, 35, 34, 37, 36, 8], [1, 1, 4, 1, 0, 4, 1, 3, 4, 1, 2, 4, 1, 5, 4, 1, 4, 4, 1, 7, 4, 1, 6, 4]],
     [[11, 6, 8], [35, 34, 37, 36, 31, 30, 33, 32, 8], [1, 5, -4, 1, 4, -4, 1, 7, -4, 1, 6, -4, 1, 1, -4, 1, 0, -4, 1, 3, -4, 1, 2, -4]]] := by decide +kernel
theorem gz_dec0 : ((gzRun 0).getD []).all (fun e => decide (gzDec (gzEnc e.2) = e.2 ∧ (gzEnc e.2).length < 200)) = true := by decide +kernel
theorem gz_dec1 : ((gzRun 1).getD []).all (fun e => decide (gzDec (gzEnc e.2) = e.2 ∧ (gzEnc e.2).length < 200)) = true := by decide +kernel
theorem gz_comm0 : (match prepComms sgRk 1000 (splitSend sgRk gzEnc ((gzRun 0).getD [])).2 with
    | .ok cs => cs.all fun c => decide (c.sz.total + 8 ≤ commMaxAlloc 2000 1000) | _ => true) = true := by decide +kernel
theorem gz_comm1 : (match prepComms sgRk 1000 (splitSend sgRk gzEnc ((gzRun 1).getD [])).2 with
    | .ok cs => cs.all fun c => decide (c.sz.total + 8 ≤ commMaxAlloc 2000 1000) | _ => true) = true := by decide +kernel
theorem gz_count : (splitSend sgRk gzEnc ((gzRun 0).getD [])).2.length + (splitSend sgRk gzEnc ((gzRun 1).getD [])).2.length < 1000 := by decide +kernel

attribute [local irreducible] gzRun splitSend

theorem gz_sent (r : Nat) (hr : r < 2) : ∀ e ∈ gzSent r, gzDec (gzEnc e.2) = e.2 ∧ (gzEnc e.2).length < 200 := by
  intro e he
  unfold gzSent at he
  have h0 := List.all_eq_true.1 gz_dec0 e
  have h1 := List.all_eq_true.1 gz_dec1 e
  obtain rfl | rfl : r = 0 ∨ r = 1 := by omega
  · exact of_decide_eq_true (h0 he)
  · exact of_decide_eq_true (h1 he)

/-- The hypotheses of `C60_ghosts`, `C60_images`, `C60_cells`, `C60_values` hold for two root patches, one split, on two ranks, reflective, periodic and outflow
boundaries; ghosts are sent (127 entries by rank 0; the images of patch 17 for itself, with mirrored cells and velocities, are in `gz_sent1`), and the limits of the communication hold. -/
example : THist PTree.init sgTree ∧ BoxNest sgBox sgTree ∧ LeafLinks sgTree ∧ Enumerates [0, 1] sgTree.roots ∧ [0, 1].Nodup ∧ EvenSides gzSim ∧ gzLy.Ok ∧
    GzWorld sgRk sgBox sgTree gzSim gzLy sgPbox gzRecs gzWorld ∧ sgSs.Pairwise (· < ·) ∧ (∀ R, R ∈ sgSs ↔ ∃ d ∈ gzWorld, R ∈ d.map (·.1)) ∧ GoodOrder List.range ∧
    (gzRun 0).map (·.length) = some 127 ∧ (∀ r < 2, ∀ e ∈ gzSent r, gzDec (gzEnc e.2) = e.2) ∧ FitsComm sgRk 1000 2000 gzEnc ((List.range 2).map gzSent) := by
  refine ⟨sg_hist, sg_tree.1, sg_tree.2.1, sg_tree.2.2.1, sg_tree.2.2.2, by unfold EvenSides; decide, by unfold GLayout.Ok; decide, gz_world, by decide, fun R => (gz_mem R).symm,
    fun n => List.Perm.refl _, gz_sent0, fun r hr e he => (gz_sent r hr e he).1, ?_⟩
  have hr2 : (List.range 2).map gzSent = [gzSent 0, gzSent 1] := rfl
  have hmem : ∀ l ∈ (List.range 2).map gzSent, ∃ r < 2, l = gzSent r := by
    intro l hl
    obtain ⟨r, h1, rfl⟩ := List.mem_map.1 hl
    exact ⟨r, List.mem_range.1 h1, rfl⟩
  refine ⟨by decide, ?_, ?_, ?_⟩
  · rw [hr2]
    have := gz_count
    simp only [List.map_cons, List.map_nil, List.flatten_cons, List.flatten_nil, List.append_nil, List.length_append]
    unfold gzSent
    omega
  · intro l hl e he
    obtain ⟨r, hr, rfl⟩ := hmem l hl
    have := (gz_sent r hr e he).2
    simp only [alignRepr, u64]
    split <;> omega
  · intro l hl cs hcs
    obtain ⟨r, hr, rfl⟩ := hmem l hl
    unfold gzSent at hcs
    obtain rfl | rfl : r = 0 ∨ r = 1 := by omega
    · have h := gz_comm0
      rw [hcs] at h
      simpa using h
    · have h := gz_comm1
      rw [hcs] at h
      simpa using h

/-- Hypotheses of `C60_outflow_defect`; and the odd domain of `C60_even`. -/
example : gzLy.vecs[0]? = some 8 ∧ (((gzRecs 100).head?.map fun r => (r.vecs 0 3).x) = some 4) ∧ ¬ EvenSides ⟨⟨0, 0, 0⟩, ⟨3, 4, 4⟩⟩ := by
  refine ⟨rfl, rfl, by unfold EvenSides; decide⟩

end Shamrock.Gz
