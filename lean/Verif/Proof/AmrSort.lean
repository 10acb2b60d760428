import Verif.Proof.AmrPass
import Verif.Proof.BVH
import Verif.Proof.Hilbert
import Verif.Props.Bitonic
import Verif.Props.Integer
/-! The depth-first order of the leaves of an octree is the order of the Morton codes of their low corners. -/
namespace Shamrock.Amr

/-- The interleaving of the low `b` bits, from the low end. -/
def lilv : Nat → Nat → Nat → Nat → Nat
  | 0, _, _, _ => 0
  | b + 1, x, y, z => 8 * lilv b (x / 2) (y / 2) (z / 2) + (4 * (x % 2) + 2 * (y % 2) + z % 2)

theorem digit_bits (x y z : Nat) : (4 * (x % 2) + 2 * (y % 2) + z % 2).testBit 0 = z.testBit 0 ∧
    (4 * (x % 2) + 2 * (y % 2) + z % 2).testBit 1 = y.testBit 0 ∧ (4 * (x % 2) + 2 * (y % 2) + z % 2).testBit 2 = x.testBit 0 := by
  rw [Nat.testBit_zero x, Nat.testBit_zero y, Nat.testBit_zero z]
  rcases Nat.mod_two_eq_zero_or_one x with hx | hx <;> rcases Nat.mod_two_eq_zero_or_one y with hy | hy <;>
    rcases Nat.mod_two_eq_zero_or_one z with hz | hz <;> rw [hx, hy, hz] <;> decide

theorem lilv_isMorton (b : Nat) : ∀ x y z, IsMorton b (lilv b x y z) x y z := by
  induction b with
  | zero => intro x y z j; simp [lilv]
  | succ b ih =>
    intro x y z j
    rw [lilv, show (8 : Nat) = 2 ^ 3 from rfl, Nat.testBit_two_pow_mul_add _ (by omega)]
    obtain ⟨d0, d1, d2⟩ := digit_bits x y z
    by_cases hj : j < 3
    · rw [if_pos hj, show j / 3 = 0 by omega]
      have h2 : decide (0 < b + 1) = true := by simp
      rw [h2, Bool.true_and]
      obtain h | h | h : j = 0 ∨ j = 1 ∨ j = 2 := by omega
      · subst h; rw [d0]; simp
      · subst h; rw [d1]; simp
      · subst h; rw [d2]; simp
    · rw [if_neg hj, ih _ _ _ (j - 3), show (j - 3) % 3 = j % 3 by omega, show j / 3 = (j - 3) / 3 + 1 by omega]
      simp only [Nat.testBit_succ]
      congr 1
      simp

theorem lilv_shift (m k x y z : Nat) : lilv (m + k) (2 ^ k * x) (2 ^ k * y) (2 ^ k * z) = 8 ^ k * lilv m x y z := by
  induction k with
  | zero => simp
  | succ k ih =>
    rw [← Nat.add_assoc, lilv]
    have h : ∀ x, 2 ^ (k + 1) * x / 2 = 2 ^ k * x ∧ 2 ^ (k + 1) * x % 2 = 0 := by
      intro x
      rw [Nat.pow_succ, show 2 ^ k * 2 * x = 2 * (2 ^ k * x) by ring]
      omega
    rw [(h x).1, (h x).2, (h y).1, (h y).2, (h z).1, (h z).2, ih, Nat.pow_succ]
    ring

/-- The grid coordinate of an integer coordinate. -/
def gridOf (s : Nat) (R p : Int) : Nat := (p - R).toNat * 2 ^ s

/-- The code of a corner. -/
def codeOf (b s : Nat) (R p : V3 Int) : Nat := lilv b (gridOf s R.x p.x) (gridOf s R.y p.y) (gridOf s R.z p.z)

theorem pairwise_range8 {α : Type} (f : Nat → List α) (r : α → α → Prop) (g : Nat → Nat) (c : α → Nat) (hr : ∀ x y, c x < c y → r x y)
    (hg : ∀ i j, i < j → g (i + 1) ≤ g j) (hf : ∀ i < 8, (f i).Pairwise r ∧ ∀ x ∈ f i, g i ≤ c x ∧ c x < g (i + 1)) : ((List.range 8).flatMap f).Pairwise r := by
  rw [List.pairwise_flatMap]
  constructor
  · intro i hi; exact (hf i (List.mem_range.1 hi)).1
  · have : (List.range 8).Pairwise (fun i j => i < j ∧ j < 8) := by decide
    refine this.imp ?_
    rintro i j ⟨hij, hj⟩ x hx y hy
    have h1 := (hf i (by omega)).2 x hx
    have h2 := (hf j hj).2 y hy
    have := hg i j hij
    exact hr _ _ (by omega)

/-- The leaves of a node have codes in the interval of the node, increasing. -/
theorem boxes_sorted {e : Nat} (t : Oct e) (s : Nat) (R : V3 Int) : ∀ (m ax ay az : Nat) (lo : V3 Int), lo.x = R.x + 2 ^ e * ax → lo.y = R.y + 2 ^ e * ay →
    lo.z = R.z + 2 ^ e * az →
    (t.boxes lo).Pairwise (fun a b => codeOf (m + e + s) s R a.lo < codeOf (m + e + s) s R b.lo) ∧
      ∀ b ∈ t.boxes lo, 8 ^ (e + s) * lilv m ax ay az ≤ codeOf (m + e + s) s R b.lo ∧
        codeOf (m + e + s) s R b.lo < 8 ^ (e + s) * (lilv m ax ay az + 1) := by
  induction t with
  | leaf e =>
    intro m ax ay az lo hx hy hz
    rw [Oct.boxes]
    refine ⟨by simp, ?_⟩
    intro b hb
    rw [List.mem_singleton] at hb
    subst hb
    have hc : codeOf (m + e + s) s R (cube lo (2 ^ e)).lo = 8 ^ (e + s) * lilv m ax ay az := by
      unfold codeOf gridOf cube
      dsimp only
      have h : ∀ (l r : Int) (a : Nat), l = r + 2 ^ e * a → (l - r).toNat * 2 ^ s = 2 ^ (e + s) * a := by
        intro l r a h
        have h1 : l - r = ((2 ^ e * a : Nat) : Int) := by push_cast; omega
        rw [h1, Int.toNat_natCast, Nat.pow_add]; ring
      rw [h _ _ _ hx, h _ _ _ hy, h _ _ _ hz, Nat.add_assoc, lilv_shift]
    rw [hc]
    have : 0 < 8 ^ (e + s) := by positivity
    refine ⟨le_refl _, ?_⟩
    rw [Nat.mul_add]; omega
  | @node e c ih =>
    intro m ax ay az lo hx hy hz
    rw [Oct.boxes]
    have hkid : ∀ r < 8, ((c r).boxes (kidLo lo (2 ^ e) r)).Pairwise (fun a b => codeOf (m + (e + 1) + s) s R a.lo < codeOf (m + (e + 1) + s) s R b.lo) ∧
        ∀ b ∈ (c r).boxes (kidLo lo (2 ^ e) r), 8 ^ (e + s) * (8 * lilv m ax ay az + r) ≤ codeOf (m + (e + 1) + s) s R b.lo ∧
          codeOf (m + (e + 1) + s) s R b.lo < 8 ^ (e + s) * (8 * lilv m ax ay az + (r + 1)) := by
      intro r hr
      have h := ih r (m + 1) (2 * ax + (coordZ r).1) (2 * ay + (coordZ r).2.1) (2 * az + (coordZ r).2.2) (kidLo lo (2 ^ e) r)
        (by unfold kidLo; dsimp only; rw [hx, pow_succ]; push_cast; ring)
        (by unfold kidLo; dsimp only; rw [hy, pow_succ]; push_cast; ring)
        (by unfold kidLo; dsimp only; rw [hz, pow_succ]; push_cast; ring)
      have hd : lilv (m + 1) (2 * ax + (coordZ r).1) (2 * ay + (coordZ r).2.1) (2 * az + (coordZ r).2.2) = 8 * lilv m ax ay az + r := by
        rw [lilv]
        unfold coordZ
        dsimp only
        rw [show (2 * ax + r / 2 / 2) / 2 = ax by omega, show (2 * ay + r / 2 % 2) / 2 = ay by omega, show (2 * az + r % 2) / 2 = az by omega]
        omega
      rw [hd, show m + 1 + e + s = m + (e + 1) + s by omega] at h
      exact h
    constructor
    · refine pairwise_range8 _ _ (fun r => 8 ^ (e + s) * (8 * lilv m ax ay az + r)) (fun b => codeOf (m + (e + 1) + s) s R b.lo) (fun _ _ h => h) ?_ hkid
      intro i j hij
      exact Nat.mul_le_mul_left _ (by omega)
    · intro b hb
      rw [List.mem_flatMap] at hb
      obtain ⟨r, hr, hb⟩ := hb
      rw [List.mem_range] at hr
      have h := (hkid r hr).2 b hb
      rw [show e + 1 + s = (e + s) + 1 by omega, Nat.pow_succ, Nat.mul_assoc, Nat.mul_assoc]
      have h1 : 8 ^ (e + s) * (8 * lilv m ax ay az) ≤ 8 ^ (e + s) * (8 * lilv m ax ay az + r) := Nat.mul_le_mul_left _ (by omega)
      have h2 : 8 ^ (e + s) * (8 * lilv m ax ay az + (r + 1)) ≤ 8 ^ (e + s) * (8 * (lilv m ax ay az + 1)) := Nat.mul_le_mul_left _ (by omega)
      omega

theorem axisGrid_pow (e : Nat) (he : e ≤ 21) (lo p : Int) (h0 : lo ≤ p) (h1 : p < lo + 2 ^ e) :
    axisGrid lo (lo + 2 ^ e) p = some (gridOf (21 - e) lo p) ∧ gridOf (21 - e) lo p < 2 ^ 21 := by
  unfold axisGrid gridOf
  obtain ⟨q, hq⟩ : ∃ q : Nat, p = lo + q := ⟨(p - lo).toNat, by omega⟩
  subst hq
  have hq' : q < 2 ^ e := by
    have : ((q : Int)) < ((2 ^ e : Nat) : Int) := by push_cast; omega
    exact_mod_cast this
  have e1 : lo + (2 : Int) ^ e - lo = 2 ^ e := by omega
  have e2 : lo + (q : Int) - lo = q := by omega
  simp only [e1, e2, Int.toNat_natCast]
  have hb : q * 2 ^ (21 - e) < 2 ^ 21 := by
    calc q * 2 ^ (21 - e) < 2 ^ e * 2 ^ (21 - e) := Nat.mul_lt_mul_of_pos_right hq' (by positivity)
      _ = 2 ^ 21 := by rw [← Nat.pow_add]; congr 1; omega
  refine ⟨?_, hb⟩
  have hpos := pow_pos' e
  rw [if_neg (by omega)]
  by_cases h : e = 21
  · subst h
    rw [if_pos (by norm_num), if_pos (by norm_num)]
    have : (((q : Int)).tdiv (((2 : Int) ^ 21).tdiv 2097152)) % 4294967296 = q := by
      rw [show ((2 : Int) ^ 21).tdiv 2097152 = 1 by decide, Int.tdiv_one]
      omega
    rw [this]
    simp
    omega
  · have hlt : (2 : Int) ^ e < 2097152 := by
      have : (2 : Nat) ^ e < 2 ^ 21 := Nat.pow_lt_pow_right (by omega) (by omega)
      have h2 : (((2 : Nat) ^ e : Nat) : Int) < ((2 ^ 21 : Nat) : Int) := by exact_mod_cast this
      push_cast at h2; omega
    have hsplit : (2097152 : Int) = 2 ^ e * 2 ^ (21 - e) := by
      rw [← pow_add, show e + (21 - e) = 21 by omega]; norm_num
    rw [if_neg (by omega), if_pos (by rw [hsplit]; exact Int.mul_emod_right _ _)]
    have : (2097152 : Int).tdiv (2 ^ e) = 2 ^ (21 - e) := by
      rw [hsplit, Int.mul_tdiv_cancel_left _ (by omega)]
    rw [this]
    have h3 : ((q : Int) * 2 ^ (21 - e)) = ((q * 2 ^ (21 - e) : Nat) : Int) := by push_cast; rfl
    rw [h3]
    congr 1
    generalize q * 2 ^ (21 - e) = w at *
    omega

theorem blockCode_pow (e : Nat) (he : e ≤ 21) (lo : V3 Int) (p : V3 Int) (hp : Inside (cube lo (2 ^ e)) p) :
    blockCode (cube lo (2 ^ e)) p = some (codeOf 21 (21 - e) lo p) := by
  unfold Inside cube at hp
  dsimp only at hp
  obtain ⟨p1, p2, p3, p4, p5, p6⟩ := hp
  obtain ⟨x1, x2⟩ := axisGrid_pow e he lo.x p.x p1 p2
  obtain ⟨y1, y2⟩ := axisGrid_pow e he lo.y p.y p3 p4
  obtain ⟨z1, z2⟩ := axisGrid_pow e he lo.z p.z p5 p6
  unfold blockCode cube
  dsimp only
  have e1 : ∀ a : Int, a + (2 : Int) ^ e - a = 2 ^ e := by intro a; omega
  rw [if_pos (by constructor <;> simp only [e1]), x1, y1, z1]
  simp only [Option.bind_eq_bind, Option.bind_some, Option.pure_def]
  congr 1
  unfold codeOf
  have h := C01_morton64_bits ⟨BitVec.ofNat 64 (gridOf (21 - e) lo.x p.x), BitVec.ofNat 64 (gridOf (21 - e) lo.y p.y), BitVec.ofNat 64 (gridOf (21 - e) lo.z p.z)⟩
  dsimp only at h
  rw [BitVec.toNat_ofNat, BitVec.toNat_ofNat, BitVec.toNat_ofNat, Nat.mod_eq_of_lt (by omega), Nat.mod_eq_of_lt (by omega), Nat.mod_eq_of_lt (by omega)] at h
  exact isMorton_unique h (lilv_isMorton 21 _ _ _)

theorem codeOf_lt (s : Nat) (R p : V3 Int) : codeOf 21 s R p < 2 ^ 63 := by
  unfold codeOf
  have := isMorton_lt (lilv_isMorton 21 (gridOf s R.x p.x) (gridOf s R.y p.y) (gridOf s R.z p.z))
  exact this

/-- A list sorted by distinct keys is determined by its content. -/
theorem perm_sorted_eq {α : Type} (k : α → Nat) (l₁ l₂ : List α) (hp : l₁.Perm l₂) (h₁ : l₁.Pairwise fun a b => k a ≤ k b) (h₂ : l₂.Pairwise fun a b => k a < k b) :
    l₁ = l₂ := by
  have hinj : ∀ a ∈ l₂, ∀ b ∈ l₂, k a = k b → a = b := by
    intro a ha b hb hk
    obtain ⟨i, hi, rfl⟩ := List.getElem_of_mem ha
    obtain ⟨j, hj, rfl⟩ := List.getElem_of_mem hb
    rw [List.pairwise_iff_getElem] at h₂
    rcases Nat.lt_trichotomy i j with h | h | h
    · have := h₂ i j hi hj h; omega
    · subst h; rfl
    · have := h₂ j i hj hi h; omega
  refine List.Perm.eq_of_pairwise (le := fun a b => k a ≤ k b) ?_ h₁ (h₂.imp fun h => Nat.le_of_lt h) hp
  intro a b ha hb hab hba
  exact hinj a (hp.mem_iff.1 ha) b hb (by omega)

/-- The sort puts the blocks in the depth-first order of the octree. -/
theorem sortBlocks_ok {e : Nat} (he : e ≤ 21) (t : Oct e) (lo : V3 Int) (bs : List Blk) (hperm : (bs.map Blk.box).Perm (t.boxes lo))
    (hlen : bs.length ≤ 2147483646) (sched : Nat → Nat → List Nat) :
    ∃ out, sortBlocks (cube lo (2 ^ e)) sched bs = some out ∧ out.Perm bs ∧ out.map Blk.box = t.boxes lo := by
  have hpos : 0 < bs.length := by
    have := hperm.length_eq
    rw [List.length_map] at this
    rw [this]; exact boxes_pos t lo
  unfold sortBlocks
  rw [if_neg (by omega), if_neg (by omega)]
  have hcodes : bs.mapM (fun b => blockCode (cube lo (2 ^ e)) b.box.lo) = some (bs.map fun b => codeOf 21 (21 - e) lo b.box.lo) := by
    apply mapM_opt_map
    intro b hb
    apply blockCode_pow e he
    have hm : b.box ∈ t.boxes lo := hperm.mem_iff.1 (List.mem_map_of_mem hb)
    refine boxes_in t lo b.box _ hm ?_
    obtain ⟨s, h1, -, h3⟩ := boxes_side t lo b.box hm
    rw [h3]
    unfold Inside cube
    dsimp only
    omega
  rw [hcodes]
  simp only [Option.bind_eq_bind, Option.bind_some]
  have hv : (BitVec.ofNat 32 bs.length).toNat = bs.length := by
    rw [BitVec.toNat_ofNat, Nat.mod_eq_of_lt (by omega)]
  obtain ⟨⟨P, hP⟩, hle, _⟩ := C29_roundup_pow2_u32 (BitVec.ofNat 32 bs.length) (by omega) (by omega)
  rw [hv] at hle
  generalize hcnt : roundupPow2U32 (BitVec.ofNat 32 bs.length) = cnt at *
  generalize hL : (bs.map (fun (b : Blk) => codeOf 21 (21 - e) lo b.box.lo) ++ List.replicate (cnt.toNat - bs.length) 18446744073709551615).zipIdx = L
  have hLlen : L.length = cnt.toNat := by rw [← hL]; simp; omega
  obtain ⟨out, o1, o2, o3, o4, o5⟩ := C10_bitonic_sorts 16 cnt P hP L (by omega)
  rw [o1 sched]
  simp only
  let B : Nat → Blk := fun i => (bs[i]?).getD bs[0]
  have hB : ∀ (i : Nat), i < bs.length → bs[i]? = some (B i) := by
    intro i hi
    show bs[i]? = some ((bs[i]?).getD bs[0])
    rw [List.getElem?_eq_getElem hi]; rfl
  have hbsB : (List.range bs.length).map B = bs := by
    apply List.ext_getElem?
    intro i
    rcases Nat.lt_or_ge i bs.length with hi | hi
    · rw [List.getElem?_map, List.getElem?_range hi, Option.map_some, hB i hi]
    · rw [List.getElem?_eq_none hi, List.getElem?_eq_none (by simpa using hi)]
  have hLAB : L = (List.range bs.length).map (fun i => (codeOf 21 (21 - e) lo (B i).box.lo, i)) ++
      (List.range (cnt.toNat - bs.length)).map (fun j => (18446744073709551615, bs.length + j)) := by
    rw [← hL, List.zipIdx_append]
    congr 1
    · apply List.ext_getElem?
      intro i
      simp only [List.getElem?_zipIdx, List.getElem?_map]
      rcases Nat.lt_or_ge i bs.length with hi | hi
      · rw [List.getElem?_range hi, hB i hi]; simp
      · rw [List.getElem?_eq_none (l := bs) hi, List.getElem?_eq_none (l := List.range _) (by simpa using hi)]; simp
    · apply List.ext_getElem?
      intro i
      simp only [List.getElem?_zipIdx, List.getElem?_map, List.length_map]
      rcases Nat.lt_or_ge i (cnt.toNat - bs.length) with hi | hi
      · rw [List.getElem?_range hi, List.getElem?_replicate, if_pos hi]; simp
      · rw [List.getElem?_replicate, if_neg (by omega), List.getElem?_eq_none (l := List.range _) (by simpa using hi)]; simp
  have htake : out.take cnt.toNat = out := List.take_of_length_le (by omega)
  have hLtake : L.take cnt.toNat = L := List.take_of_length_le (by omega)
  rw [htake, hLtake, hLAB] at o4
  have hsorted : out.Pairwise (fun x y => x.1 ≤ y.1) := by
    rw [List.pairwise_iff_getElem]
    intro i j hi hj hij
    exact o3 i j _ _ (by omega) (by omega) (List.getElem?_eq_getElem hi) (List.getElem?_eq_getElem hj)
  have hpre := sorted_prefix (2 ^ 63) out _ _ hsorted o4
    (by intro x hx; obtain ⟨i, hi, rfl⟩ := List.mem_map.1 hx; exact codeOf_lt _ _ _)
    (by intro x hx; obtain ⟨i, hi, rfl⟩ := List.mem_map.1 hx; simp only; omega)
  rw [List.length_map, List.length_range] at hpre
  generalize hQ : out.take bs.length = Q at *
  have hQs : Q.Pairwise (fun x y => x.1 ≤ y.1) := by rw [← hQ]; exact hsorted.sublist (List.take_sublist _ _)
  have hQm : ∀ x ∈ Q, x.2 < bs.length ∧ x.1 = codeOf 21 (21 - e) lo (B x.2).box.lo := by
    intro x hx
    obtain ⟨i, hi, rfl⟩ := List.mem_map.1 (hpre.mem_iff.1 hx)
    exact ⟨List.mem_range.1 hi, rfl⟩
  have hidx : (Q.map (·.2)).Perm (List.range bs.length) := by
    have := hpre.map (·.2)
    rw [List.map_map] at this
    simpa [Function.comp_def] using this
  have hres : (Q.map (·.2)).mapM (fun i => bs[i]?) = some ((Q.map (·.2)).map B) := by
    apply mapM_opt_map
    intro i hi
    exact hB i (List.mem_range.1 (hidx.mem_iff.1 hi))
  have hp2 : ((Q.map (·.2)).map B).Perm bs := by
    have := hidx.map B
    rw [hbsB] at this
    exact this
  refine ⟨_, hres, hp2, ?_⟩
  apply perm_sorted_eq (fun b => codeOf 21 (21 - e) lo b.lo) _ _ ((hp2.map Blk.box).trans hperm)
  · rw [List.map_map, List.map_map, List.pairwise_map]
    refine List.Pairwise.imp_of_mem ?_ hQs
    intro x y hx hy hxy
    dsimp only [Function.comp_apply]
    rw [← (hQm x hx).2, ← (hQm y hy).2]
    exact hxy
  · have h := (boxes_sorted t (21 - e) lo 0 0 0 0 lo (by simp) (by simp) (by simp)).1
    rw [show 0 + e + (21 - e) = 21 by omega] at h
    exact h

end Shamrock.Amr
