import Verif.Props.SphGhostGeom
import Mathlib.Algebra.Order.Ring.Rat
/-! C56: boxes of the patch tree are nested, witnesses, limits. -/
namespace Shamrock

/-- The domain boxes of the nodes of a patch tree are nested, for every monotone rounding. -/
theorem domain_nest {F : Type} [LinearOrder F] (A : MonoArith F) (fact dmin : V3 F) (smin : V3 Nat)
    (hf : A.goodFact fact.x ∧ A.goodFact fact.y ∧ A.goodFact fact.z) {t : PTree} (H : TInv t) (hs : SplitsOk t) (hr : RootsInRange smin t) :
    BoxNest (domainBox A fact dmin smin) t := by
  intro x n hx hl
  obtain ⟨h1, h2, h3⟩ := nodes_in H hs hr x x n (Nat.le_refl _) hx
  obtain ⟨⟨sx, nx⟩, ⟨sy, ny⟩, sz, nz⟩ := (hs x n hx hl).1
  generalize n.coord = c at *
  obtain ⟨⟨mnx, mny, mnz⟩, ⟨mxx, mxy, mxz⟩⟩ := c
  dsimp only at h1 h2 h3 sx nx sy ny sz nz
  obtain ⟨ax, bx, cx⟩ := splitCoord1_bounds sx nx (by omega)
  obtain ⟨ay, by', cy⟩ := splitCoord1_bounds sy ny (by omega)
  obtain ⟨az, bz, cz⟩ := splitCoord1_bounds sz nz (by omega)
  have ux : u64add mxx 1 = mxx + 1 := by unfold u64add; omega
  have uy : u64add mxy 1 = mxy + 1 := by unfold u64add; omega
  have uz : u64add mxz 1 = mxz + 1 := by unfold u64add; omega
  have tx1 := transformMul_mono A (dmin := dmin.x) hf.1 h1.1 (show mnx ≤ splitCoord1 mnx mxx + 1 by omega) (by omega)
  have tx2 := transformMul_mono A (dmin := dmin.x) hf.1 (show smin.x ≤ splitCoord1 mnx mxx + 1 by omega)
    (show splitCoord1 mnx mxx + 1 ≤ mxx + 1 by omega) (by omega)
  have ty1 := transformMul_mono A (dmin := dmin.y) hf.2.1 h2.1 (show mny ≤ splitCoord1 mny mxy + 1 by omega) (by omega)
  have ty2 := transformMul_mono A (dmin := dmin.y) hf.2.1 (show smin.y ≤ splitCoord1 mny mxy + 1 by omega)
    (show splitCoord1 mny mxy + 1 ≤ mxy + 1 by omega) (by omega)
  have tz1 := transformMul_mono A (dmin := dmin.z) hf.2.2 h3.1 (show mnz ≤ splitCoord1 mnz mxz + 1 by omega) (by omega)
  have tz2 := transformMul_mono A (dmin := dmin.z) hf.2.2 (show smin.z ≤ splitCoord1 mnz mxz + 1 by omega)
    (show splitCoord1 mnz mxz + 1 ≤ mxz + 1 by omega) (by omega)
  intro ch hbm
  simp only [getSplit, getSplitCoord, List.mem_cons, List.not_mem_nil, or_false] at hbm
  rcases hbm with rfl | rfl | rfl | rfl | rfl | rfl | rfl | rfl <;>
    simp only [domainBox, getPatchRange, cx, cy, cz, ux, uy, uz] <;>
    refine ⟨⟨?_, ?_, ?_⟩, ⟨?_, ?_, ?_⟩⟩ <;> first | (with_reducible exact le_refl _) | (with_reducible assumption)

/-- Threads one after the other. -/
theorem interleaves_flatten {α : Type} : ∀ (ls : List (List α)), Interleaves ls ls.flatten := by
  have gen : ∀ (l : List α) (pre rest : List (List α)) (r : List α), Interleaves (pre ++ [] :: rest) r → Interleaves (pre ++ l :: rest) (l ++ r) := by
    intro l
    induction l with
    | nil => intro pre rest r h; exact h
    | cons a l ih => intro pre rest r h; exact Interleaves.step pre rest a l _ (ih pre rest r h)
  have main : ∀ (ls pre : List (List α)), (∀ l ∈ pre, l = []) → Interleaves (pre ++ ls) ls.flatten := by
    intro ls
    induction ls with
    | nil => intro pre h; exact Interleaves.done _ (by simpa using h)
    | cons l ls ih =>
      intro pre h
      rw [List.flatten_cons]
      refine gen l pre ls _ ?_
      have := ih (pre ++ [[]]) (by intro x hx; rcases List.mem_append.1 hx with hx | hx; exact h x hx; simpa using hx)
      simpa using this
  intro ls
  simpa using main ls [] (by simp)

/-! ### Witness: two root patches, one split, on two ranks -/

def sgTree : PTree := (tRun exSer PTree.init).getD PTree.init
def sgBox : PatchCoord → V3 Int × V3 Int := domainBox roundedArith ⟨3, 3, 3⟩ ⟨-5, 0, 0⟩ ⟨0, 0, 0⟩
def sgPbox (R : Nat) : Box Int :=
  match (List.range 10).findSome? fun x => (sgTree.tree x).bind fun n => if n.isLeaf = true ∧ n.linked = R then some n.coord else none with
  | none => ⟨⟨0, 0, 0⟩, ⟨0, 0, 0⟩⟩
  | some c => ⟨(sgBox c).1, (sgBox c).2⟩
def sgPs (R : Nat) : List (V3 Int × Int) :=
  if R = 100 then [(⟨2, 1, 1⟩, 1), (⟨-4, 7, 7⟩, 5)] else if R = 10 then [(⟨3, 2, 2⟩, 2)] else if R = 17 then [(⟨10, 7, 7⟩, 3)] else []
def sgRho (R : Nat) : Int := if R = 100 then 2 else 3
def sgRk (R : Nat) : Nat := R % 2
def sgWorld : List (List (Nat × PartData Int)) := [[10, 12, 14, 16, 100], [11, 13, 15, 17]].map fun l => l.map fun i => (i, mkPart (sgPs i))
def sgSs : List Nat := [10, 11, 12, 13, 14, 15, 16, 17, 100]
/-- The ghosts built by rank `r`, free boundary, one schedule. -/
def sgRun (r : Nat) : Option (List ((Nat × Nat) × List (V3 Int × Int))) :=
  match serBuild sgBox sgTree [0, 1] with
  | .ok (s, ids) => (treeField s sgRho fun _ => []).bind fun tf =>
    match findInterfaces s ids tf sgRho 100 (fun _ ls => ls.flatten) ((((sgWorld[r]?).getD []).map (·.1)).map fun i => (i, sgPbox i)) 0 freeShifts [] with
    | some (.ok m) => match (genIdTable ((sgWorld[r]?).getD []) m []).bind fun tab =>
        buildGhosts (fun _ => ⟨0,0,0⟩) (fun _ => 0) (fun _ => List.range) ((sgWorld[r]?).getD []) 0 tab with
      | .ok l => some (l.map fun e => (e.1, e.2.parts))
      | _ => none
    | _ => none
  | _ => none
def sgGhosts : List (List ((Nat × Nat) × PartData Int)) :=
  [[((10, 11), mkPart [(⟨3, 2, 2⟩, 2)]), ((10, 12), mkPart [(⟨3, 2, 2⟩, 2)]), ((10, 13), mkPart [(⟨3, 2, 2⟩, 2)]), ((10, 100), mkPart [(⟨3, 2, 2⟩, 2)]),
    ((100, 10), mkPart [(⟨2, 1, 1⟩, 1)]), ((100, 11), mkPart [(⟨2, 1, 1⟩, 1)]), ((100, 12), mkPart [(⟨2, 1, 1⟩, 1)]), ((100, 13), mkPart [(⟨2, 1, 1⟩, 1)])], []]
def sgEnc (p : PartData Int) : List Byte := p.parts.flatMap fun q => [BitVec.ofInt 8 q.1.x, BitVec.ofInt 8 q.1.y, BitVec.ofInt 8 q.1.z, BitVec.ofInt 8 q.2]
def sgDec (b : List Byte) : PartData Int := match b with | [x, y, z, h] => mkPart [(⟨x.toInt, y.toInt, z.toInt⟩, h.toInt)] | _ => mkPart []

theorem sg_hist : THist PTree.init sgTree := by
  have h : (tRun exSer PTree.init).isSome := by decide +kernel
  obtain ⟨t, ht⟩ := Option.isSome_iff_exists.1 h
  have : sgTree = t := by unfold sgTree; rw [ht]; rfl
  rw [this]
  exact tRun_hist exSer _ _ _ (THist.nil _) ht

theorem sg_lt (x : Nat) (n : PTNode) (h : sgTree.tree x = some n) : x < 10 := by
  have hN : sgTree.nextId = 10 := by decide +kernel
  have := (sg_hist.inv TInv.init).fresh x n h
  omega

theorem sg_roots (x : Nat) : sgTree.roots x = true ↔ x = 0 ∨ x = 1 := by
  have hroot : ∀ x < 10, (sgTree.roots x = true ↔ x = 0 ∨ x = 1) := by decide +kernel
  by_cases hx : x < 10
  · exact hroot x hx
  · constructor
    · intro h
      obtain ⟨n, n1, _⟩ := ((sg_hist.inv TInv.init).root x).1 h
      exact absurd (sg_lt x n n1) hx
    · intro h; omega

/-- The tree meets the hypotheses on the tree. -/
theorem sg_tree : BoxNest sgBox sgTree ∧ LeafLinks sgTree ∧ Enumerates [0, 1] sgTree.roots ∧ [0, 1].Nodup := by
  refine ⟨?_, ⟨?_, ?_⟩, ?_, by decide⟩
  · refine domain_nest _ _ _ _ ⟨by show (0 : Int) ≤ 3; omega, by show (0 : Int) ≤ 3; omega, by show (0 : Int) ≤ 3; omega⟩ (sg_hist.inv TInv.init) ?_ ?_
    · have hk : ∀ x < 10, ∀ n ∈ sgTree.tree x, n.isLeaf = false → n.coord = ⟨⟨80, 0, 0⟩, ⟨159, 79, 79⟩⟩ := by decide +kernel
      intro x n hx hl
      rw [hk x (sg_lt x n hx) n hx hl]
      unfold Splittable NotFull
      decide
    · intro r n hr hn
      have c0 : (sgTree.tree 0).map (·.coord) = some ⟨⟨80, 0, 0⟩, ⟨159, 79, 79⟩⟩ := by decide +kernel
      have c1 : (sgTree.tree 1).map (·.coord) = some ⟨⟨0, 0, 0⟩, ⟨79, 79, 79⟩⟩ := by decide +kernel
      rcases (sg_roots r).1 hr with rfl | rfl
      · rw [hn, Option.map_some, Option.some.injEq] at c0
        rw [c0]; decide
      · rw [hn, Option.map_some, Option.some.injEq] at c1
        rw [c1]; decide
  · have hk : ∀ x < 10, ∀ n ∈ sgTree.tree x, (n.isLeaf = true ↔ n.linked ≠ u64max) := by decide +kernel
    exact fun x n hx => hk x (sg_lt x n hx) n hx
  · have hk : ∀ x < 10, ∀ y < 10, ∀ n ∈ sgTree.tree x, ∀ m ∈ sgTree.tree y, n.isLeaf = true → m.isLeaf = true → n.linked = m.linked → x = y := by decide +kernel
    exact fun x y n m hx hy => hk x (sg_lt x n hx) y (sg_lt y m hy) n hx m hy
  · intro x; rw [sg_roots]; simp

/-- The patches meet the hypotheses on the patches. -/
theorem sg_world : GhostWorld sgRk sgBox sgTree sgPbox sgPs sgWorld := by
  have hleaf : ∀ x < 10, ∀ n ∈ sgTree.tree x, n.isLeaf = true → n.linked ∈ sgSs := by decide +kernel
  have hsome : ∀ R ∈ sgSs, ((List.range 10).findSome? fun x => (sgTree.tree x).bind fun n => if n.isLeaf = true ∧ n.linked = R then some n else none).isSome := by decide +kernel
  have hbox : ∀ x < 10, ∀ n ∈ sgTree.tree x, n.isLeaf = true → (sgPbox n.linked).lower = (sgBox n.coord).1 ∧ (sgPbox n.linked).upper = (sgBox n.coord).2 := by decide +kernel
  refine ⟨?_, ?_, ?_, ?_, ?_, ?_⟩
  · intro d hd
    simp only [sgWorld, List.map_cons, List.map_nil, List.mem_cons, List.not_mem_nil, or_false] at hd
    rcases hd with rfl | rfl <;> simp [MapOk]
  · intro r d hr kv hkv
    match r, hr with
    | 0, hr => cases hr; simp only [List.map_cons, List.map_nil, List.mem_cons, List.not_mem_nil, or_false] at hkv; rcases hkv with rfl | rfl | rfl | rfl | rfl <;> rfl
    | 1, hr => cases hr; simp only [List.map_cons, List.map_nil, List.mem_cons, List.not_mem_nil, or_false] at hkv; rcases hkv with rfl | rfl | rfl | rfl <;> rfl
  · intro d hd kv hkv
    have hk : ∀ i ∈ ([[10, 12, 14, 16, 100], [11, 13, 15, 17]] : List (List Nat)).flatten, i < u64max := by decide
    obtain ⟨l, hl, rfl⟩ := List.mem_map.1 hd
    obtain ⟨i, hi, rfl⟩ := List.mem_map.1 hkv
    exact hk i (List.mem_flatten.2 ⟨l, hl, hi⟩)
  · intro d hd kv hkv
    obtain ⟨l, hl, rfl⟩ := List.mem_map.1 hd
    obtain ⟨i, hi, rfl⟩ := List.mem_map.1 hkv
    refine ⟨rfl, ?_⟩
    unfold sgPs
    dsimp only
    split <;> [decide; (split <;> [decide; (split <;> decide)])]
  · intro R
    have h1 : (∃ d ∈ sgWorld, R ∈ d.map (·.1)) ↔ R ∈ sgSs := by
      simp only [sgWorld, List.map_cons, List.map_nil, List.mem_cons, List.not_mem_nil, or_false, exists_eq_or_imp, exists_eq_left, sgSs]
      omega
    rw [h1]
    constructor
    · intro h
      obtain ⟨n, hn⟩ := Option.isSome_iff_exists.1 (hsome R h)
      obtain ⟨x, -, hx⟩ := List.exists_of_findSome?_eq_some hn
      obtain ⟨m, hm, hmm⟩ := Option.bind_eq_some_iff.1 hx
      split at hmm
      · rename_i hc
        exact ⟨_, x, m, hm, hc.1, hc.2, rfl⟩
      · cases hmm
    · rintro ⟨b, x, n, hx, hl, rfl, -⟩
      exact hleaf x (sg_lt x n hx) n hx hl
  · rintro R b ⟨x, n, hx, hl, rfl, rfl⟩
    obtain ⟨h1, h2⟩ := hbox x (sg_lt x n hx) n hx hl
    rw [← h1, ← h2]

/-- All hypotheses of `C56_tree_field` and `C56_ghosts` hold for it, ghosts are exchanged, and the limits of the communication hold. -/
example : THist PTree.init sgTree ∧ BoxNest sgBox sgTree ∧ LeafLinks sgTree ∧ Enumerates [0, 1] sgTree.roots ∧ [0, 1].Nodup ∧
    GhostWorld sgRk sgBox sgTree sgPbox sgPs sgWorld ∧ sgSs.Pairwise (· < ·) ∧ (∀ R, R ∈ sgSs ↔ ∃ d ∈ sgWorld, R ∈ d.map (·.1)) ∧
    (∀ R ∈ sgSs, (mergedOf sgRho sgPbox sgPs freeShifts sgSs R).length < 2 ^ 32) ∧ (∀ ls : List (List Nat), Interleaves ls ls.flatten) ∧
    (∀ r < 2, sgRun r = (sgGhosts[r]?).map fun l => l.map fun e => (e.1, e.2.parts)) ∧
    (∀ l ∈ sgGhosts, ∀ e ∈ l, sgDec (sgEnc e.2) = e.2) ∧ FitsComm sgRk 1000 2000 sgEnc sgGhosts := by
  refine ⟨sg_hist, sg_tree.1, sg_tree.2.1, sg_tree.2.2.1, sg_tree.2.2.2, sg_world, by decide, ?_, ?_, interleaves_flatten, ?_, ?_, ⟨by decide, by decide +kernel, by decide +kernel, ?_⟩⟩
  · intro R
    simp only [sgWorld, List.map_cons, List.map_nil, List.mem_cons, List.not_mem_nil, or_false, exists_eq_or_imp, exists_eq_left, sgSs]
    omega
  · intro R hR
    have : ∀ R ∈ sgSs, (mergedOf sgRho sgPbox sgPs freeShifts sgSs R).length < 10 := by decide +kernel
    exact (this R hR).trans (by decide)
  · intro r hr
    have h0 : sgRun 0 = some (((sgGhosts[0]?).getD []).map fun e => (e.1, e.2.parts)) := by decide +kernel
    have h1 : sgRun 1 = some (((sgGhosts[1]?).getD []).map fun e => (e.1, e.2.parts)) := by decide +kernel
    have : r = 0 ∨ r = 1 := by omega
    rcases this with rfl | rfl
    · rw [h0]; rfl
    · rw [h1]; rfl
  · intro l hl e he
    have : ∀ e ∈ sgGhosts.flatten, sgDec (sgEnc e.2) = e.2 := by
      intro e he
      simp only [sgGhosts, List.flatten_cons, List.flatten_nil, List.append_nil, List.mem_cons, List.not_mem_nil, or_false] at he
      rcases he with rfl | rfl | rfl | rfl | rfl | rfl | rfl | rfl <;> rfl
    exact this e (List.mem_flatten.2 ⟨l, hl, he⟩)
  · intro l hl cs hcs
    have : ∀ l ∈ sgGhosts, (match prepComms sgRk 1000 (splitSend sgRk sgEnc l).2 with | .ok cs => cs.all fun c => decide (c.sz.total + 8 ≤ commMaxAlloc 2000 1000) | _ => true) = true := by decide +kernel
    have h := this l hl
    rw [hcs] at h
    simpa using h

/-- With periodic boundaries: a patch gets images of particles of other patches and of its own particles. -/
example : mergedOf sgRho sgPbox sgPs (periodicShifts ⟨16, 8, 8⟩) sgSs 100 =
    [(⟨2, 1, 1⟩, 1), (⟨-4, 7, 7⟩, 5), (⟨3, 2, 2⟩, 2), (⟨-6, -1, -1⟩, 3), (⟨-6, -1, 7⟩, 3), (⟨-6, 7, -1⟩, 3), (⟨-6, 7, 7⟩, 3),
     (⟨-4, -1, -1⟩, 5), (⟨-4, -1, 7⟩, 5), (⟨-4, 7, -1⟩, 5), (⟨2, 1, 9⟩, 1), (⟨2, 9, 1⟩, 1), (⟨2, 9, 9⟩, 1)] := by decide +kernel

/-! ### Geometry: two patches of a unit box, rational coordinates -/

def ghBox (R : Nat) : Box ℚ := if R = 0 then ⟨⟨0, 0, 0⟩, ⟨1/2, 1, 1⟩⟩ else ⟨⟨1/2, 0, 0⟩, ⟨1, 1, 1⟩⟩
def ghPs (R : Nat) : List (V3 ℚ × ℚ) := if R = 0 then [(⟨1/8, 1/2, 1/2⟩, 1/8)] else if R = 1 then [(⟨7/8, 1/2, 1/2⟩, 1/8), (⟨5/8, 7/8, 1/2⟩, 1/16)] else []
/-- Conversion to an integer, towards zero. -/
def ratTrunc (q : ℚ) : Int := q.num.tdiv q.den

theorem gh_domain : DomainOk (fun _ => (1/4 : ℚ)) ghBox ghPs [0, 1] ⟨0, 0, 0⟩ ⟨1, 1, 1⟩ := by
  have h1 : ∀ S ∈ [0, 1], ∀ p ∈ ghPs S, InHalfOpen (ghBox S).lower (ghBox S).upper p.1 := by unfold InHalfOpen; decide +kernel
  have h2 : ∀ S ∈ [0, 1], ((0 : ℚ) ≤ (ghBox S).lower.x ∧ (ghBox S).upper.x ≤ 0 + 1) ∧ (0 ≤ (ghBox S).lower.y ∧ (ghBox S).upper.y ≤ 0 + 1) ∧
    (0 ≤ (ghBox S).lower.z ∧ (ghBox S).upper.z ≤ 0 + 1) := by decide +kernel
  exact ⟨h1, h2, fun S _ => ⟨fun _ => by decide +kernel, by decide +kernel⟩, by decide⟩

theorem ratTrunc_near (q : ℚ) : |q - (ratTrunc q : ℚ)| < 1 := by
  unfold ratTrunc
  have hd : (0 : ℚ) < (q.den : ℚ) := by exact_mod_cast q.den_pos
  have h1 : q.num = q.den * q.num.tdiv q.den + q.num.tmod q.den := (Int.mul_tdiv_add_tmod q.num q.den).symm
  have h2 : q - (q.num.tdiv q.den : ℚ) = (q.num.tmod q.den : ℚ) / q.den := by
    rw [eq_div_iff hd.ne', sub_mul]
    have h3 : q * q.den = q.num := Rat.mul_den_eq_num q
    rw [h3]
    have h4 : (q.num : ℚ) = q.den * (q.num.tdiv q.den : ℤ) + (q.num.tmod q.den : ℤ) := by exact_mod_cast h1
    rw [h4]
    rw [← h4]
    linarith
  rw [h2, abs_div, abs_of_pos hd, div_lt_one hd]
  have h6 : |q.num.tmod q.den| < (q.den : ℤ) := by
    have hz : (q.den : ℤ) ≠ 0 := by exact_mod_cast q.den_nz
    have := Int.natAbs_tmod q.num q.den
    have h7 : (q.num.tmod q.den).natAbs < q.den := by
      rw [this, Int.natAbs_natCast]
      exact Nat.mod_lt _ q.den_pos
    rw [Int.abs_eq_natAbs]
    exact_mod_cast h7
  exact_mod_cast h6

/-- The hypotheses of `C56_images`, `C56_periodic`, `C56_free`, `C56_neighbours` and `C56_shearing` hold for it; contents for the three kinds of boundaries. -/
example : DomainOk (fun _ => (1/4 : ℚ)) ghBox ghPs [0, 1] ⟨0, 0, 0⟩ ⟨1, 1, 1⟩ ∧ ImagesOk (fun _ => (1/4 : ℚ)) ghBox ghPs (periodicShifts ⟨1, 1, 1⟩) [0, 1] ∧
    (∀ q, |q - (ratTrunc q : ℚ)| < 1) ∧ IsAxis ⟨1, 0, 0⟩ ∧ IsAxis ⟨0, 1, 0⟩ ∧
    mergedOf (fun _ => (1/4 : ℚ)) ghBox ghPs freeShifts [0, 1] 0 = [(⟨1/8, 1/2, 1/2⟩, 1/8), (⟨5/8, 7/8, 1/2⟩, 1/16)] ∧
    mergedOf (fun _ => (1/4 : ℚ)) ghBox ghPs (periodicShifts ⟨1, 1, 1⟩) [0, 1] 0 =
      [(⟨1/8, 1/2, 1/2⟩, 1/8), (⟨-1/8, 1/2, 1/2⟩, 1/8), (⟨5/8, -1/8, 1/2⟩, 1/16), (⟨5/8, 7/8, 1/2⟩, 1/16)] ∧
    mergedOf (fun _ => (1/4 : ℚ)) ghBox ghPs (shearShifts ratTrunc ⟨⟨1, 0, 0⟩, ⟨0, 1, 0⟩, 7/4⟩ ⟨1, 1, 1⟩) [0, 1] 0 =
      [(⟨1/8, 1/2, 1/2⟩, 1/8), (⟨-1/8, -1/4, 1/2⟩, 1/8), (⟨-1/8, 3/4, 1/2⟩, 1/8), (⟨5/8, -1/8, 1/2⟩, 1/16), (⟨5/8, 7/8, 1/2⟩, 1/16)] := by
  refine ⟨gh_domain, ⟨gh_domain.inside, fun S hS => (gh_domain.radius S hS).1, by decide, by decide +kernel, by decide +kernel⟩, ratTrunc_near, Or.inl rfl, Or.inr (Or.inl rfl),
    by decide +kernel, by decide +kernel, by decide +kernel⟩

/-- C56 does not extend to radii of senders: only the radius of the receiver is used. A particle `y` whose patch has a radius that reaches the particle `x` of patch 0 is not in
the content of patch 0 (while `x` is in the content of the patch of `y`). -/
theorem C56_one_sided_defect : ∃ (rho : Nat → ℚ) (x y : V3 ℚ × ℚ), x ∈ ghPs 0 ∧ y ∈ ghPs 1 ∧ DomainOk rho ghBox ghPs [0, 1] ⟨0, 0, 0⟩ ⟨1, 1, 1⟩ ∧
    (|x.1.x - y.1.x| ≤ rho 1 ∧ |x.1.y - y.1.y| ≤ rho 1 ∧ |x.1.z - y.1.z| ≤ rho 1) ∧
    x ∈ mergedOf rho ghBox ghPs freeShifts [0, 1] 1 ∧ y ∉ mergedOf rho ghBox ghPs freeShifts [0, 1] 0 := by
  refine ⟨fun R => if R = 0 then 1/16 else 3/4, (⟨1/8, 1/2, 1/2⟩, 1/8), (⟨7/8, 1/2, 1/2⟩, 1/8), by decide +kernel, by decide +kernel,
    ⟨gh_domain.inside, gh_domain.boxes, ?_, by decide⟩, ?_, by decide +kernel, by decide +kernel⟩
  · have : ∀ S ∈ [0, 1], (0 : ℚ) ≤ (if S = 0 then 1/16 else 3/4) ∧ (if S = 0 then 1/16 else 3/4) ≤ (1 : ℚ) := by decide +kernel
    exact fun S hS => ⟨fun _ => (this S hS).1, (this S hS).2, (this S hS).2, (this S hS).2⟩
  · refine ⟨?_, ?_, ?_⟩ <;> rw [abs_le] <;> decide +kernel

/-- C56 fails when the radius exceeds the box: the image by two box sizes is in reach but is not there. -/
theorem C56_large_radius_defect : InReach (ghBox 0) (2 : ℚ) ((⟨1/8, 1/2, 1/2⟩ : V3 ℚ).addv ⟨2, 0, 0⟩) ∧ (⟨1/8, 1/2, 1/2⟩, 1/8) ∈ ghPs 0 ∧
    ((⟨1/8, 1/2, 1/2⟩ : V3 ℚ).addv ⟨2, 0, 0⟩, 1/8) ∉ mergedOf (fun _ => (2 : ℚ)) ghBox ghPs (periodicShifts ⟨1, 1, 1⟩) [0, 1] 0 := by
  unfold InReach InHalfOpen
  decide +kernel

/-- C56 fails for a shear along a negative axis: with `dir = -y` and a shear of three box sizes (the lattice is the periodic one) the image of the particle by one box size
along `x` is in reach but is not there. -/
theorem C56_shear_negative_dir_defect : shearShift ⟨⟨1, 0, 0⟩, ⟨0, -1, 0⟩, 3⟩ (⟨1, 1, 1⟩ : V3 ℚ) ⟨-1, -3, 0⟩ = ⟨-1, 0, 0⟩ ∧ (⟨7/8, 1/2, 1/2⟩, 1/8) ∈ ghPs 1 ∧
    InReach (ghBox 0) (1/4 : ℚ) ((⟨7/8, 1/2, 1/2⟩ : V3 ℚ).addv ⟨-1, 0, 0⟩) ∧
    ((⟨7/8, 1/2, 1/2⟩ : V3 ℚ).addv ⟨-1, 0, 0⟩, 1/8) ∉ mergedOf (fun _ => (1/4 : ℚ)) ghBox ghPs (shearShifts ratTrunc ⟨⟨1, 0, 0⟩, ⟨0, -1, 0⟩, 3⟩ ⟨1, 1, 1⟩) [0, 1] 0 := by
  unfold InReach InHalfOpen
  decide +kernel

end Shamrock
