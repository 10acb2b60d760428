import Verif.Model.BVH
import Verif.Props.Bitonic
import Verif.Props.Reduction
import Verif.Props.Traversal
import Verif.Props.Integer
import Verif.Props.MortonCell
import Verif.Props.Radix
/-! Proofs about the BVH build. -/
namespace Shamrock

theorem mapM_opt_map {α β : Type} (f : α → Option β) (g : α → β) : ∀ (l : List α), (∀ a ∈ l, f a = some (g a)) →
    l.mapM f = some (l.map g) := by
  intro l
  induction l with
  | nil => intro _; rfl
  | cons a l ih =>
    intro h
    rw [List.mapM_cons, h a (by simp), ih (fun b hb => h b (by simp [hb]))]
    rfl

theorem sorted_filter_split {V : Type} (e : Nat) : ∀ (L : List (Nat × V)), L.Pairwise (fun x y => x.1 ≤ y.1) →
    L = L.filter (fun x => decide (x.1 < e)) ++ L.filter (fun x => !decide (x.1 < e)) := by
  intro L
  induction L with
  | nil => intro _; rfl
  | cons a L ih =>
    intro h
    rw [List.pairwise_cons] at h
    by_cases ha : a.1 < e
    · rw [List.filter_cons_of_pos (by simpa using ha), List.filter_cons_of_neg (by simpa using ha), List.cons_append, ← ih h.2]
    · have h1 : L.filter (fun x => decide (x.1 < e)) = [] := by
        rw [List.filter_eq_nil_iff]
        intro b hb
        have := h.1 b hb
        simp; omega
      have h2 : L.filter (fun x => !decide (x.1 < e)) = L := by
        rw [List.filter_eq_self]
        intro b hb
        have := h.1 b hb
        simp; omega
      rw [List.filter_cons_of_neg (by simpa using ha), List.filter_cons_of_pos (by simpa using ha), h1, h2]; rfl

/-- A sorted rearrangement of `A ++ B` where the keys of `A` are below `e` and those of `B` are not starts with a rearrangement of `A`. -/
theorem sorted_prefix {V : Type} (e : Nat) (L A B : List (Nat × V)) (hs : L.Pairwise (fun x y => x.1 ≤ y.1)) (hp : L.Perm (A ++ B))
    (hA : ∀ x ∈ A, x.1 < e) (hB : ∀ x ∈ B, ¬ x.1 < e) : (L.take A.length).Perm A := by
  have h1 := hp.filter (fun x => decide (x.1 < e))
  have hA' : A.filter (fun x => decide (x.1 < e)) = A := List.filter_eq_self.2 (fun x hx => by simpa using hA x hx)
  have hB' : B.filter (fun x => decide (x.1 < e)) = [] := List.filter_eq_nil_iff.2 (fun x hx => by simpa using hB x hx)
  rw [List.filter_append, hA', hB', List.append_nil] at h1
  have h2 := sorted_filter_split e L hs
  rw [h2, List.take_left' h1.length_eq]
  exact h1

/-- The tree of a build: a complete radix tree, or a single leaf when there is one cell. -/
def WholeTree (nodes : List KNode) (T : KTree) : Prop := T.Complete nodes ∨ (nodes = [] ∧ T = .leaf 0)

section whole
variable {nodes : List KNode} {T : KTree}

theorem complete_pos (H : T.Complete nodes) : nodes.length ≠ 0 := by
  intro h0
  have := H.ints
  rw [h0] at this
  cases T with
  | leaf k => have := H.root; simp [KTree.ref] at this
  | node i l r => simp [KTree.internals] at this

theorem whole_leaves (W : WholeTree nodes T) : T.leaves = List.range (nodes.length + 1) := by
  rcases W with H | ⟨rfl, rfl⟩
  · exact H.leaves
  · rfl

theorem whole_ints (W : WholeTree nodes T) : T.internals.Perm (List.range nodes.length) := by
  rcases W with H | ⟨rfl, rfl⟩
  · exact H.ints
  · exact List.Perm.refl _

theorem whole_enc (W : WholeTree nodes T) : T.Encoded nodes := by
  rcases W with H | ⟨rfl, rfl⟩
  · exact H.enc
  · trivial

theorem whole_root (W : WholeTree nodes T) : cellIdx nodes.length T.ref = 0 := by
  rcases W with H | ⟨rfl, rfl⟩
  · rw [H.root]; rfl
  · rfl

theorem size_cells (off : Nat) : ∀ T : KTree, T.size = (T.cells off).length := by
  intro T
  induction T with
  | leaf k => rfl
  | node i l r ihl ihr =>
    simp only [KTree.cells, List.length_map] at ihl ihr
    simp [KTree.size, KTree.cells, KTree.subtrees, ihl, ihr]

theorem whole_size (W : WholeTree nodes T) : T.size = 2 * nodes.length + 1 := by
  rw [size_cells nodes.length, (cells_perm nodes.length T).length_eq, List.length_append, List.length_map, whole_leaves W,
    (whole_ints W).length_eq, List.length_range, List.length_range]
  omega

theorem whole_traversal (W : WholeTree nodes T) (D : Nat) (hD : T.depth + 1 ≤ D) (cond : Nat → Bool) :
    stackTraversal D nodes cond 0 (2 * nodes.length + 2) = some (T.visit nodes.length cond) := by
  rcases W with H | ⟨rfl, rfl⟩
  · have := whole_size (Or.inl H)
    exact C09_traversal T H D hD cond _ (by omega)
  · have hD1 : 1 ≤ D := by simpa [KTree.depth] using hD
    unfold stackTraversal
    rw [if_neg (by omega)]
    have hg : ((List.replicate D 0).set (D - 1) 0)[D - 1]? = some 0 := by
      rw [List.getElem?_set_self (by simp; omega)]
    simp only [List.length_nil, Nat.mul_zero, Nat.zero_add, KTree.visit, cellIdx, if_true, Nat.add_zero]
    unfold travLoop
    rw [if_pos (by omega), hg]
    simp only [Option.bind_some]
    by_cases hc : cond 0
    · rw [if_pos hc, if_pos (by omega), if_pos hc]
      unfold travLoop
      rw [if_neg (by omega)]; rfl
    · rw [if_neg hc, if_neg hc]
      unfold travLoop
      rw [if_neg (by omega)]; rfl

theorem whole_subtree_leaf (W : WholeTree nodes T) (k : Nat) (hk : k ≤ nodes.length) : KTree.leaf k ∈ T.subtrees :=
  (leaves_subtrees T k).2 (by rw [whole_leaves W, List.mem_range]; omega)

theorem whole_propagate {α : Type} (W : WholeTree nodes T) (comb : α → α → α) (scheds : List (List Nat))
    (hdepth : T.depth ≤ scheds.length) (m : List α) (leafv : Nat → α) (hlen : m.length = 2 * nodes.length + 1)
    (hleaf : ∀ k, k ≤ nodes.length → m[nodes.length + k]? = some (leafv k)) :
    ∃ m', propagateUp comb nodes scheds m = some m' ∧ m'.length = m.length ∧
      ∀ S ∈ T.subtrees, m'[cellIdx nodes.length S.ref]? = some (S.value comb leafv) := by
  rcases W with H | ⟨rfl, rfl⟩
  · obtain ⟨m', h1, h2, _, h4⟩ := C08_propagate_up comb nodes T H scheds hdepth m leafv hlen hleaf
    exact ⟨m', h1, h2, h4⟩
  · refine ⟨m, ?_, rfl, ?_⟩
    · cases scheds with
      | nil => rfl
      | cons s r => unfold propagateUp; rw [if_pos (by simp)]
    · intro S hS
      simp only [KTree.subtrees, List.mem_singleton] at hS
      subst hS
      have := hleaf 0 (by omega)
      simpa [KTree.ref, cellIdx, KTree.value] using this

/-- Every cell index is that of exactly one subtree. -/
theorem whole_cells (W : WholeTree nodes T) (id : Nat) : id < 2 * nodes.length + 1 ↔ ∃ S ∈ T.subtrees, cellIdx nodes.length S.ref = id := by
  have hp := cells_perm nodes.length T
  have hm : id ∈ T.cells nodes.length ↔ id ∈ T.leaves.map (· + nodes.length) ++ T.internals := hp.mem_iff
  have h1 : id ∈ T.cells nodes.length ↔ ∃ S ∈ T.subtrees, cellIdx nodes.length S.ref = id := by
    unfold KTree.cells; rw [List.mem_map]
  rw [← h1, hm, List.mem_append, List.mem_map, (whole_ints W).mem_iff, List.mem_range, whole_leaves W]
  constructor
  · intro h
    by_cases hi : id < nodes.length
    · exact Or.inr hi
    · exact Or.inl ⟨id - nodes.length, by rw [List.mem_range]; omega, by omega⟩
  · rintro (⟨k, hk, rfl⟩ | h)
    · rw [List.mem_range] at hk; omega
    · omega

theorem whole_cells_nodup (W : WholeTree nodes T) : (T.cells nodes.length).Nodup := by
  rw [(cells_perm nodes.length T).nodup_iff, List.nodup_append]
  refine ⟨?_, ((whole_ints W).nodup_iff).2 List.nodup_range, ?_⟩
  · rw [whole_leaves W]
    exact List.Nodup.map (fun a b h => by simpa using h) List.nodup_range
  · intro a ha b hb hab
    obtain ⟨k, _, rfl⟩ := List.mem_map.1 ha
    have := List.mem_range.1 ((whole_ints W).mem_iff.1 hb)
    omega

/-- The leaves below a cell, as an interval. -/
theorem subtree_leaves (W : WholeTree nodes T) (S : KTree) (hS : S ∈ T.subtrees) :
    (∃ k, S = .leaf k) ∨ ∃ i l r nd, S = .node i l r ∧ i < nodes.length ∧ nodes[i]? = some nd ∧
      S.leaves = List.range' (min i nd.endRange) (max i nd.endRange + 1 - min i nd.endRange) ∧ max i nd.endRange ≤ nodes.length := by
  cases S with
  | leaf k => exact Or.inl ⟨k, rfl⟩
  | node i l r =>
    right
    obtain ⟨nd, e1, _, _, e4, _, _⟩ := subtrees_encoded T _ (whole_enc W) hS
    have hi : i < nodes.length := by
      rw [← List.mem_range, ← (whole_ints W).mem_iff]; exact (internals_subtrees T i).2 ⟨l, r, hS⟩
    refine ⟨i, l, r, nd, rfl, hi, e1, e4, ?_⟩
    have hm : max i nd.endRange ∈ (KTree.node i l r).leaves := by
      show _ ∈ l.leaves ++ r.leaves
      rw [e4, List.mem_range'_1]; omega
    have := (leaves_subtrees (.node i l r) _).2 hm
    have := (leaves_subtrees T _).1 (subtrees_trans T _ _ hS this)
    rw [whole_leaves W, List.mem_range] at this
    omega

end whole

/-! ### The structure -/

/-- Object at place `s` of the sorted order. -/
def sortedObj (sortMap : List Nat) (s : Nat) : Nat := sortMap[s]?.getD 0

/-- What the structure build guarantees for `n` objects of codes `code`. -/
structure StructOk {w : Nat} (n sb : Nat) (code : Nat → BitVec w) (sortMap redMap : List Nat) (nodes : List KNode) (T : KTree)
    (st : Nat → Nat) : Prop where
  whole : WholeTree nodes T
  depth : T.depth ≤ sb
  cells : nodes.length + 1 ≤ n
  perm : (sortMap.take n).Perm (List.range n)
  start0 : st 0 = 0
  startn : st (nodes.length + 1) = n
  starts : ∀ k ≤ nodes.length + 1, redMap[k]? = some (st k)
  lt : ∀ k ≤ nodes.length, st k < st (k + 1)
  sorted : ∀ s t, s ≤ t → t < n → (code (sortedObj sortMap s)).toNat ≤ (code (sortedObj sortMap t)).toNat
  radix : ∀ k ≤ nodes.length, ∀ p q r, r < n → st k ≤ p → p < st (k + 1) → st k ≤ q → q < st (k + 1) → ¬ (st k ≤ r ∧ r < st (k + 1)) →
    clz (code (sortedObj sortMap p) ^^^ code (sortedObj sortMap r)) < clz (code (sortedObj sortMap p) ^^^ code (sortedObj sortMap q))
  cellRadix : ∀ S ∈ T.subtrees, ∃ s ≤ w, ∀ k ∈ S.leaves, ∀ j ≤ nodes.length, j ∈ S.leaves ↔
    (code (sortedObj sortMap (st j))).toNat >>> s = (code (sortedObj sortMap (st k))).toNat >>> s

theorem length_le_of_starts {st : Nat → Nat} {c : Nat} (hlt : ∀ k < c, st k < st (k + 1)) : ∀ k ≤ c, k + st 0 ≤ st k := by
  intro k
  induction k with
  | zero => intro _; omega
  | succ k ih => intro hk; have := ih (by omega); have := hlt k (by omega); omega

section build
variable {F : Type} [LinearOrder F] {w : Nat}

/-- The codes are those of the objects, with at most `sb < w` significant bits. -/
theorem buildFromCodes_ok (env : BVHEnv F) (objCnt : BitVec 32)
    (level sb : Nat) (code : Nat → BitVec w) (h1 : 1 ≤ objCnt.toNat)
    (hn : objCnt.toNat ≤ 2 ^ 24 + 1) (hsb : sb < w)
    (hbits : ∀ i < objCnt.toNat, (code i).toNat < 2 ^ sb) (hord : env.order.Perm (List.range objCnt.toNat)) :
    ∃ sortMap redMap nodes T st, buildFromCodes env objCnt ((List.range objCnt.toNat).map code ++
        List.replicate ((roundupPow2U32 objCnt).toNat - objCnt.toNat) (BitVec.allOnes w)) level = .ok (sortMap, redMap, nodes) ∧
      StructOk objCnt.toNat sb code sortMap redMap nodes T st := by
  obtain ⟨⟨P, hP⟩, hle, _⟩ := C29_roundup_pow2_u32 objCnt h1 (by omega)
  unfold buildFromCodes
  generalize hcnt : roundupPow2U32 objCnt = cnt at *
  generalize hN : objCnt.toNat = n at *
  set L : List (Nat × Nat) := (((List.range n).map code ++ List.replicate (cnt.toNat - n) (BitVec.allOnes w)).map (·.toNat)).zipIdx with hL
  have hLlen : L.length = cnt.toNat := by rw [hL]; simp; omega
  obtain ⟨out, o1, o2, o3, o4, o5⟩ := C10_bitonic_sorts 16 cnt P hP L (by omega)
  rw [o1 env.sortSched]
  simp only
  have hLAB : L = (List.range n).map (fun i => ((code i).toNat, i)) ++
      (List.range (cnt.toNat - n)).map (fun j => ((BitVec.allOnes w).toNat, n + j)) := by
    rw [hL, List.map_append, List.zipIdx_append]
    congr 1
    · apply List.ext_getElem?
      intro i
      simp only [List.getElem?_zipIdx, List.getElem?_map, List.map_map]
      by_cases hi : i < n
      · rw [List.getElem?_range hi]; simp
      · rw [List.getElem?_eq_none (by simpa using hi)]; simp
    · apply List.ext_getElem?
      intro i
      simp only [List.getElem?_zipIdx, List.getElem?_map, List.map_map, List.length_map, List.length_range, List.map_replicate]
      by_cases hi : i < cnt.toNat - n
      · rw [List.getElem?_range hi, List.getElem?_replicate, if_pos hi]; simp
      · rw [List.getElem?_replicate, if_neg hi, List.getElem?_eq_none (l := List.range _) (by simpa using hi)]; simp
  have htake : out.take cnt.toNat = out := List.take_of_length_le (by omega)
  have hLtake : L.take cnt.toNat = L := List.take_of_length_le (by omega)
  rw [htake, hLtake, hLAB] at o4
  have hones : 2 ^ sb ≤ (BitVec.allOnes w).toNat := by
    rw [BitVec.toNat_allOnes]
    have := Nat.pow_lt_pow_right (a := 2) (by omega) hsb
    omega
  have hsorted : out.Pairwise (fun x y => x.1 ≤ y.1) := by
    rw [List.pairwise_iff_getElem]
    intro i j hi hj hij
    exact o3 i j _ _ (by omega) (by omega) (List.getElem?_eq_getElem hi) (List.getElem?_eq_getElem hj)
  have hpre := sorted_prefix (2 ^ sb) out _ _ hsorted o4
    (by intro x hx; obtain ⟨i, hi, rfl⟩ := List.mem_map.1 hx; exact hbits i (List.mem_range.1 hi))
    (by intro x hx; obtain ⟨i, hi, rfl⟩ := List.mem_map.1 hx; simp only; omega)
  rw [List.length_map, List.length_range] at hpre
  have hout : ∀ s < n, ∃ i < n, out[s]? = some ((code i).toNat, i) := by
    intro s hs
    have hlt : s < out.length := by omega
    have hm : out[s] ∈ out.take n := by
      rw [List.mem_take_iff_getElem]; exact ⟨s, by omega, rfl⟩
    obtain ⟨i, hi, he⟩ := List.mem_map.1 (hpre.mem_iff.1 hm)
    exact ⟨i, List.mem_range.1 hi, by rw [List.getElem?_eq_getElem hlt, he]⟩
  have hobj : ∀ s < n, sortedObj (out.map (·.2)) s < n ∧ out[s]? = some ((code (sortedObj (out.map (·.2)) s)).toNat, sortedObj (out.map (·.2)) s) := by
    intro s hs
    obtain ⟨i, hi, he⟩ := hout s hs
    have : sortedObj (out.map (·.2)) s = i := by unfold sortedObj; rw [List.getElem?_map, he]; rfl
    rw [this]; exact ⟨hi, he⟩
  set m : Nat → BitVec w := fun k => BitVec.ofNat w ((out[k]?.map (·.1)).getD 0) with hm
  have hmc : ∀ s < n, m s = code (sortedObj (out.map (·.2)) s) := by
    intro s hs
    rw [hm]; simp only
    rw [(hobj s hs).2]; simp
  have hmono : ∀ i j, i < j → j < n → (m i).toNat ≤ (m j).toNat := by
    intro i j hij hj
    rw [hmc i (by omega), hmc j hj]
    exact o3 i j _ _ (by omega) (by omega) (hobj i (by omega)).2 (hobj j hj).2
  obtain ⟨rmap, lc, red, r1, r2, r3, r4, r5, r6, r7, r8, r9, r10⟩ := C07_reduction hmono (by omega) (by omega) level env.junk env.garbage env.order hord
  rw [r1]
  simp only
  let st : Nat → Nat := fun k => rmap[k]?.getD 0
  have hst : ∀ k ≤ lc, rmap[k]? = some (st k) := by
    intro k hk
    have : k < rmap.length := by omega
    show _ = some (rmap[k]?.getD 0)
    rw [List.getElem?_eq_getElem this]; rfl
  have hstlt : ∀ k < lc, st k < st (k + 1) ∧ st (k + 1) ≤ n ∧ red[k]? = some (m (st k)) := by
    intro k hk
    obtain ⟨a, c, q1, q2, q3, q4, q5⟩ := r6 k hk
    rw [hst k (by omega), Option.some.injEq] at q1
    rw [hst (k + 1) (by omega), Option.some.injEq] at q2
    subst q1 q2
    exact ⟨q3, q4, q5⟩
  have hst0 : st 0 = 0 := by show rmap[0]?.getD 0 = 0; rw [r4]; rfl
  have hstn : st lc = n := by show rmap[lc]?.getD 0 = n; rw [r5]; rfl
  have hlcn : lc ≤ n := by
    have := length_le_of_starts (st := st) (c := lc) (fun k hk => (hstlt k hk).1) lc (le_refl _)
    omega
  have hredc : ∀ k < lc, (red[k]?.getD 0#w) = code (sortedObj (out.map (·.2)) (st k)) := by
    intro k hk
    obtain ⟨q1, q2, q3⟩ := hstlt k hk
    rw [q3]
    exact hmc _ (by omega)
  have hstrict : ∀ i j, i < j → j < lc → (red[i]?.getD 0#w).toNat < (red[j]?.getD 0#w).toNat := by
    intro i j hij hj
    have := r9 i j (by omega) (by omega) hij
    rw [List.getElem?_eq_getElem (by omega), List.getElem?_eq_getElem (by omega)]
    exact this
  have hredlt : ∀ k < lc, (red[k]?.getD 0#w).toNat < 2 ^ sb := by
    intro k hk
    rw [hredc k hk]
    obtain ⟨q1, q2, _⟩ := hstlt k hk
    exact hbits _ (hobj _ (by omega)).1
  have htree : ∃ nodes T, karrasTree lc (fun k => red[k]?.getD 0#w) = some nodes ∧ nodes.length = lc - 1 ∧ WholeTree nodes T ∧ T.depth ≤ sb ∧
      ∀ S ∈ T.subtrees, ∃ s ≤ w, ∀ k ∈ S.leaves, ∀ j < lc, j ∈ S.leaves ↔ (red[j]?.getD 0#w).toNat >>> s = (red[k]?.getD 0#w).toNat >>> s := by
    by_cases h2 : 2 ≤ lc
    · obtain ⟨nodes, T, k1, k2, k3, k4, k5, k6, k7⟩ := C05_karras_tree (m := fun k => red[k]?.getD 0#w) hstrict h2 (by omega) (w - sb) (by omega)
        (fun i hi => by rw [show w - (w - sb) = sb by omega]; exact hredlt i hi)
      refine ⟨nodes, T, k1, k2, Or.inl ⟨k3, k4, by rw [k5, k2]; congr 1; omega, by rw [k2]; exact k6, by omega⟩, by omega, ?_⟩
      exact fun S hS => C05_radix_cells hstrict (by omega) nodes k1 T k3 k5 k6 S hS
    · have : lc = 1 := by omega
      subst this
      exact ⟨[], .leaf 0, rfl, rfl, Or.inr ⟨rfl, rfl⟩, Nat.zero_le _, by
        intro S hS
        rw [KTree.subtrees, List.mem_singleton] at hS
        subst hS
        refine ⟨0, Nat.zero_le _, ?_⟩
        intro k hk j hj
        rw [KTree.leaves, List.mem_singleton] at hk
        rw [KTree.leaves, List.mem_singleton]
        have : j = 0 := by omega
        subst hk this
        exact ⟨fun _ => rfl, fun _ => rfl⟩⟩
  obtain ⟨nodes, T, t1, t2, t3, t4, t5⟩ := htree
  rw [t1]
  have hl1 : nodes.length + 1 = lc := by omega
  refine ⟨out.map (·.2), rmap, nodes, T, st, rfl, t3, t4, by omega, ?_, hst0, by rw [hl1]; exact hstn, ?_, ?_, ?_, ?_, ?_⟩
  · rw [← List.map_take]
    refine (hpre.map (·.2)).trans ?_
    rw [List.map_map]
    have : (List.range n).map ((fun x : Nat × Nat => x.2) ∘ fun i => ((code i).toNat, i)) = List.range n := by
      conv_rhs => rw [← List.map_id (List.range n)]
      rfl
    rw [this]
  · intro k hk; exact hst k (by omega)
  · intro k hk; exact (hstlt k (by omega)).1
  · intro s t hst' ht
    exact o3 s t _ _ hst' (by omega) (hobj s (by omega)).2 (hobj t ht).2
  · intro k hk p q r hr hp1 hp2 hq1 hq2 hnr
    obtain ⟨_, b2, _⟩ := hstlt k (by omega)
    have ic : ∀ x, InRCell rmap k x ↔ st k ≤ x ∧ x < st (k + 1) := by
      intro x
      unfold InRCell
      constructor
      · rintro ⟨a, c, e1, e2, e3, e4⟩
        rw [hst k (by omega), Option.some.injEq] at e1
        rw [hst (k + 1) (by omega), Option.some.injEq] at e2
        subst e1 e2; exact ⟨e3, e4⟩
      · rintro ⟨e3, e4⟩
        exact ⟨_, _, hst k (by omega), hst (k + 1) (by omega), e3, e4⟩
    have := r10 k (by omega) p q r (by omega) (by omega) hr ((ic p).2 ⟨hp1, hp2⟩) ((ic q).2 ⟨hq1, hq2⟩) (fun h => hnr ((ic r).1 h))
    rw [hmc p (by omega), hmc q (by omega), hmc r hr] at this
    exact this
  · intro S hS
    obtain ⟨s, s1, s2⟩ := t5 S hS
    refine ⟨s, s1, ?_⟩
    intro k hk j hj
    have hkl : k < lc := by
      obtain ⟨a, c, e1, e2, _⟩ : ∃ a c : Nat, k ∈ T.leaves ∧ T.leaves = List.range (nodes.length + 1) ∧ True := by
        refine ⟨0, 0, ?_, whole_leaves t3, trivial⟩
        exact (leaves_subtrees T k).1 (subtrees_trans _ _ _ hS ((leaves_subtrees S k).2 hk))
      rw [e2] at e1
      have := List.mem_range.1 e1
      omega
    have := s2 k hk j (by omega)
    rw [hredc k hkl, hredc j (by omega)] at this
    exact this

theorem buildStruct_ok (A : GridArith F) (C : MCode w) (env : BVHEnv F) (pos : List (V3 F)) (objCnt : BitVec 32) (lo hi : V3 F)
    (level sb : Nat) (code : Nat → BitVec w) (hbox : lo.x < hi.x ∧ lo.y < hi.y ∧ lo.z < hi.z) (h1 : 1 ≤ objCnt.toNat)
    (hn : objCnt.toNat ≤ 2 ^ 24 + 1) (hcode : ∀ i < objCnt.toNat, (pos[i]?).bind (mortonOf A C lo hi) = some (code i)) (hsb : sb < w)
    (hbits : ∀ i < objCnt.toNat, (code i).toNat < 2 ^ sb) (hord : env.order.Perm (List.range objCnt.toNat)) :
    ∃ sortMap redMap nodes T st, buildStruct A C env pos objCnt lo hi level = .ok (sortMap, redMap, nodes) ∧
      StructOk objCnt.toNat sb code sortMap redMap nodes T st := by
  obtain ⟨_, hle, _⟩ := C29_roundup_pow2_u32 objCnt h1 (by omega)
  unfold buildStruct
  rw [if_neg (by intro h; rw [h] at h1; simp at h1)]
  have hset : mortonCodeSet A C lo hi pos objCnt.toNat (roundupPow2U32 objCnt).toNat = .ok ((List.range objCnt.toNat).map code ++
      List.replicate ((roundupPow2U32 objCnt).toNat - objCnt.toNat) (BitVec.allOnes w)) := by
    unfold mortonCodeSet
    rw [if_neg (by omega), if_pos hbox, mapM_range_some _ _ code hcode]
  rw [hset]
  simp only [Res.bind]
  exact buildFromCodes_ok env objCnt level sb code h1 hn hsb hbits hord

end build

/-! ### Objects of the cells -/

/-- The objects of leaf `k`, in sorted order. -/
def leafObjs (sortMap : List Nat) (st : Nat → Nat) (k : Nat) : List Nat :=
  (List.range' (st k) (st (k + 1) - st k)).map (sortedObj sortMap)

section objs
variable {w n sb : Nat} {code : Nat → BitVec w} {sortMap redMap : List Nat} {nodes : List KNode} {T : KTree} {st : Nat → Nat}

theorem st_mono (H : StructOk n sb code sortMap redMap nodes T st) : ∀ a b, a ≤ b → b ≤ nodes.length + 1 → st a ≤ st b := by
  intro a b hab
  induction b with
  | zero => intro _; rw [show a = 0 by omega]
  | succ b ih =>
    intro hb
    by_cases h : a = b + 1
    · rw [h]
    · have := ih (by omega) (by omega)
      have := H.lt b (by omega)
      omega

theorem st_le (H : StructOk n sb code sortMap redMap nodes T st) (k : Nat) (hk : k ≤ nodes.length + 1) : st k ≤ n := by
  have := st_mono H k (nodes.length + 1) hk (le_refl _)
  rw [H.startn] at this; exact this

theorem sortMap_len (H : StructOk n sb code sortMap redMap nodes T st) : n ≤ sortMap.length := by
  have := H.perm.length_eq
  rw [List.length_take, List.length_range] at this
  omega

theorem sortMap_get (H : StructOk n sb code sortMap redMap nodes T st) (s : Nat) (hs : s < n) :
    sortMap[s]? = some (sortedObj sortMap s) := by
  have := sortMap_len H
  unfold sortedObj
  rw [List.getElem?_eq_getElem (by omega)]; rfl

theorem forSorted_ok (H : StructOk n sb code sortMap redMap nodes T st) (a c : Nat) (hc : c ≤ n) :
    forSorted sortMap a c = some ((List.range' a (c - a)).map (sortedObj sortMap)) := by
  unfold forSorted
  refine mapM_opt_map _ _ _ ?_
  intro s hs
  rw [List.mem_range'_1] at hs
  exact sortMap_get H s (by omega)

theorem forEachInLeaf_ok (H : StructOk n sb code sortMap redMap nodes T st) (k : Nat) (hk : k ≤ nodes.length) :
    forEachInLeaf sortMap redMap k = some (leafObjs sortMap st k) := by
  unfold forEachInLeaf
  rw [H.starts k (by omega), H.starts (k + 1) (by omega)]
  exact forSorted_ok H _ _ (st_le H _ (by omega))

theorem leafObjs_flat (H : StructOk n sb code sortMap redMap nodes T st) (a : Nat) : ∀ len, a + len ≤ nodes.length + 1 →
    (List.range' a len).flatMap (leafObjs sortMap st) = (List.range' (st a) (st (a + len) - st a)).map (sortedObj sortMap) := by
  intro len
  induction len with
  | zero => intro _; simp
  | succ len ih =>
    intro hle
    have m1 := st_mono H a (a + len) (by omega) (by omega)
    have m2 := st_mono H (a + len) (a + len + 1) (by omega) (by omega)
    rw [List.range'_concat, List.flatMap_append, ih (by omega), Nat.one_mul]
    simp only [List.flatMap_cons, List.flatMap_nil, List.append_nil, leafObjs]
    rw [← List.map_append, show a + (len + 1) = a + len + 1 by omega,
      show st (a + len + 1) - st a = (st (a + len) - st a) + (st (a + len + 1) - st (a + len)) by omega, ← List.range'_append_1]
    congr 3
    omega

theorem all_objs (H : StructOk n sb code sortMap redMap nodes T st) :
    ((List.range (nodes.length + 1)).flatMap (leafObjs sortMap st)).Perm (List.range n) := by
  rw [List.range_eq_range', leafObjs_flat H 0 _ (by omega), Nat.zero_add, H.start0, H.startn, Nat.sub_zero]
  refine List.Perm.trans ?_ H.perm
  have : (List.range' 0 n).map (sortedObj sortMap) = sortMap.take n := by
    apply List.ext_getElem?
    intro i
    rw [List.getElem?_map, List.getElem?_take]
    by_cases hi : i < n
    · rw [if_pos hi, sortMap_get H i hi, List.getElem?_range' hi]; simp
    · rw [if_neg hi, List.getElem?_eq_none (by simpa using hi)]; rfl
  rw [this]

theorem leafObjs_ne (H : StructOk n sb code sortMap redMap nodes T st) (k : Nat) (hk : k ≤ nodes.length) : leafObjs sortMap st k ≠ [] := by
  have := H.lt k hk
  unfold leafObjs
  intro h
  have := congrArg List.length h
  simp at this; omega

theorem subtree_leaf_le (H : StructOk n sb code sortMap redMap nodes T st) (S : KTree) (hS : S ∈ T.subtrees) (k : Nat)
    (hk : k ∈ S.leaves) : k ≤ nodes.length := by
  have := (leaves_subtrees T _).1 (subtrees_trans T _ _ hS ((leaves_subtrees S k).2 hk))
  rw [whole_leaves H.whole, List.mem_range] at this
  omega

theorem leaves_ne : ∀ S : KTree, S.leaves ≠ [] := by
  intro S
  induction S with
  | leaf k => simp [KTree.leaves]
  | node i l r ihl _ => simp [KTree.leaves, ihl]

/-- `for_each_in_cell` enumerates the objects of the leaves below the cell. -/
theorem forEachInCell_ok (H : StructOk n sb code sortMap redMap nodes T st) (S : KTree) (hS : S ∈ T.subtrees) :
    forEachInCell sortMap redMap nodes (cellIdx nodes.length S.ref) = some (S.leaves.flatMap (leafObjs sortMap st)) := by
  rcases subtree_leaves H.whole S hS with ⟨k, rfl⟩ | ⟨i, l, r, nd, rfl, hi, hnd, hlv, hmx⟩
  · have hk := subtree_leaf_le H _ hS k (by simp [KTree.leaves])
    have hidx : cellIdx nodes.length (KTree.leaf k).ref = k + nodes.length := by simp [KTree.ref, cellIdx]
    unfold forEachInCell
    rw [hidx, if_pos (by omega), Nat.add_sub_cancel]
    have := forEachInLeaf_ok H k hk
    unfold forEachInLeaf at this
    rw [this]
    simp [KTree.leaves]
  · have hidx : cellIdx nodes.length (KTree.node i l r).ref = i := by simp [KTree.ref, cellIdx]
    unfold forEachInCell
    rw [hidx, if_neg (by omega), hnd, hlv]
    simp only [Option.bind_eq_bind, Option.bind_some]
    rw [H.starts _ (by omega), H.starts _ (by omega)]
    simp only [Option.bind_some]
    rw [forSorted_ok H _ _ (st_le H _ (by omega)), leafObjs_flat H _ _ (by omega)]
    have : min i nd.endRange + (max i nd.endRange + 1 - min i nd.endRange) = max i nd.endRange + 1 := by omega
    rw [this]

end objs

end Shamrock
