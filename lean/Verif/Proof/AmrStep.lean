import Verif.Proof.AmrCons
import Verif.Proof.AmrSort
/-! A pass with the final sort; histories of passes. -/
namespace Shamrock.Amr

/-- The blocks are, in this order, the leaves of an octree whose root is the cube at `lo` of side `2 ^ e`. -/
def Mesh (e : Nat) (lo : V3 Int) (bs : List Blk) : Prop := ∃ t : Oct e, bs.map Blk.box = t.boxes lo

/-- What a pass is given describes the blocks: their number, their bounds, their levels (`2 ^ E` is the side of a block of level 0) and, between blocks of
the patch, the shared faces. -/
structure Describes (G : Grid) (E : Nat) (bs : List Blk) : Prop where
  count : G.n = bs.length
  box : ∀ (i : Nat) b, bs[i]? = some b → G.box i = b.box
  small : E ≤ 62
  levels : ∀ i, G.lv i < 9223372036854775808
  level : ∀ (i : Nat) b, bs[i]? = some b → side b.box * 2 ^ (G.lv i) = 2 ^ E
  links : ∀ (a b : Nat) (A B : Blk), bs[a]? = some A → bs[b]? = some B → (b ∈ G.links a ↔ Adjacent A.box B.box)

/-- The snapshot holds the states of the blocks. -/
def Fresh (I : Interp) (bs : List Blk) : Prop := ∀ (i : Nat) b, bs[i]? = some b → ∀ k : Fin 8, I.snap (i * 8 + k) = b.cell k

/-- The block at position `i`. -/
def blkAt (bs : List Blk) (i : Nat) : Blk := (bs[i]?).getD ⟨box0, fun _ => 0⟩

theorem blkAt_eq {bs : List Blk} {i : Nat} (h : i < bs.length) : bs[i]? = some (blkAt bs i) := by
  unfold blkAt; rw [List.getElem?_eq_getElem h]; rfl

theorem range_blkAt (bs : List Blk) : (List.range bs.length).map (blkAt bs) = bs := by
  apply List.ext_getElem?
  intro i
  rcases Nat.lt_or_ge i bs.length with hi | hi
  · rw [List.getElem?_map, List.getElem?_range hi, Option.map_some, blkAt_eq hi]
  · rw [List.getElem?_eq_none hi, List.getElem?_eq_none (by simpa using hi)]

theorem Describes.amrOk {G : Grid} {E : Nat} {bs : List Blk} (h : Describes G E bs) {e : Nat} {t : Oct e} {lo : V3 Int} (ht : bs.map Blk.box = t.boxes lo)
    (hb : Balanced (bs.map Blk.box)) : AmrOk G t lo E := by
  have hg : ∀ i < G.n, bs[i]? = some (blkAt bs i) := fun i hi => blkAt_eq (by rw [← h.count]; exact hi)
  constructor
  · rw [h.count, ← ht, List.length_map]
  · intro i hi
    rw [← ht, List.getElem?_map, hg i hi, Option.map_some, h.box i _ (hg i hi)]
  · exact h.small
  · exact h.levels
  · intro i hi
    rw [h.box i _ (hg i hi)]; exact h.level i _ (hg i hi)
  · intro a ha b hb
    rw [h.box a _ (hg a ha), h.box b _ (hg b hb)]
    exact h.links a b _ _ (hg a ha) (hg b hb)
  · rw [← ht]; exact hb

theorem newBlks_length (I : Interp) (B : Nat → Blk) (ref der : List Nat) (n : Nat) : ((List.range n).flatMap (newBlks I B ref der)).length ≤ 8 * n := by
  induction n with
  | zero => simp
  | succ n ih =>
    rw [List.range_succ, List.flatMap_append, List.length_append]
    have : (newBlks I B ref der n).length ≤ 8 := by
      unfold newBlks
      split
      · simp
      · split
        · simp
        · split <;> simp
    simp only [List.flatMap_cons, List.flatMap_nil, List.append_nil]
    omega

/-- The blocks the pass starts from, the refined ones with the states of the snapshot. -/
def withSnap (I : Interp) (ref : List Nat) (B : Nat → Blk) (i : Nat) : Blk :=
  if ref[i]? = some 1 then ⟨(B i).box, fun k => I.snap (i * 8 + k)⟩ else B i

theorem withSnap_box (I : Interp) (ref : List Nat) (B : Nat → Blk) (i : Nat) : (withSnap I ref B i).box = (B i).box := by
  unfold withSnap; split <;> rfl

theorem newBlks_withSnap {G : Grid} {e : Nat} {t : Oct e} {lo : V3 Int} {E : Nat} {crit : Nat → Bool × Bool} {ref der : List Nat} (h : AmrOk G t lo E)
    (P : Plan G crit ref der) (I : Interp) (B : Nat → Blk) {i : Nat} (hi : i < G.n) : newBlks I (withSnap I ref B) ref der i = newBlks I B ref der i := by
  unfold newBlks
  by_cases hr : ref[i]? = some 1
  · rw [if_pos hr, if_pos hr, withSnap_box]
  · rw [if_neg hr, if_neg hr]
    by_cases hd : der[i]? = some 1
    · rw [if_pos hd, if_pos hd]
      congr 1
      apply merged_congr
      intro k hk
      unfold withSnap
      rw [octet_kept h P hi hd k hk, if_neg (by simp)]
    · rw [if_neg hd, if_neg hd]
      congr 1
      unfold withSnap
      rw [if_neg hr]

theorem newBlks_total_snap {G : Grid} {e : Nat} {t : Oct e} {lo : V3 Int} {E : Nat} {crit : Nat → Bool × Bool} {ref der : List Nat} (h : AmrOk G t lo E)
    (P : Plan G crit ref der) (I : Interp) (B : Nat → Blk) (hB : ∀ i < G.n, (B i).box = G.box i) :
    total ((List.range G.n).flatMap (newBlks I B ref der)) = total ((List.range G.n).map (withSnap I ref B)) := by
  let I' : Interp := { I with snap := fun j => if ref[j / 8]? = some 1 then I.snap j else (B (j / 8)).cell ⟨j % 8, Nat.mod_lt _ (by decide)⟩ }
  have hsame : ∀ i < G.n, newBlks I' (withSnap I ref B) ref der i = newBlks I (withSnap I ref B) ref der i := by
    intro i hi
    unfold newBlks
    by_cases hr : ref[i]? = some 1
    · rw [if_pos hr, if_pos hr]
      apply List.map_congr_left
      intro p hp
      rw [List.mem_range] at hp
      have hs : I'.snap (i * 8 + p) = I.snap (i * 8 + p) := by
        show (if ref[(i * 8 + p) / 8]? = some 1 then I.snap (i * 8 + p) else _) = _
        rw [show (i * 8 + p) / 8 = i by omega, if_pos hr]
      have hi : ∀ s, interpState I' i (i * 8 + p) s = interpState I i (i * 8 + p) s := by
        intro s; unfold interpState; dsimp only; rw [hs]
      unfold child
      congr 1
      funext k
      unfold refinedState
      simp only [hi, hs]
    · rw [if_neg hr, if_neg hr]
  have e1 : (List.range G.n).flatMap (newBlks I B ref der) = (List.range G.n).flatMap (newBlks I' (withSnap I ref B) ref der) := by
    apply List.flatMap_congr
    intro i hi
    rw [List.mem_range] at hi
    rw [hsame i hi, newBlks_withSnap h P I B hi]
  rw [e1]
  apply newBlks_total h P
  · intro i hi; rw [withSnap_box]; exact hB i hi
  · intro i hi k
    have h1 : (i * 8 + k.val) / 8 = i := by omega
    have h2 : (⟨(i * 8 + k.val) % 8, Nat.mod_lt _ (by decide)⟩ : Fin 8) = k := Fin.ext (by dsimp only; omega)
    show (if ref[(i * 8 + k.val) / 8]? = some 1 then I.snap (i * 8 + k.val) else (B ((i * 8 + k.val) / 8)).cell ⟨(i * 8 + k.val) % 8, Nat.mod_lt _ (by decide)⟩) = _
    unfold withSnap
    by_cases hr : ref[i]? = some 1
    · rw [if_pos hr, if_pos (by rw [h1]; exact hr)]
    · rw [if_neg hr, if_neg (by rw [h1]; exact hr), h2, h1]

/-- A pass, for every schedule. -/
theorem amrStep_ok {G : Grid} {E e : Nat} {lo : V3 Int} {bs : List Blk} (he : e ≤ 21) (h : Describes G E bs) (hm : Mesh e lo bs)
    (hb : Balanced (bs.map Blk.box)) (I : Interp) (crit : Nat → Bool × Bool) (junk : Nat → Blk) (S : PassSched) (ss : Nat → Nat → List Nat) (others : Bool) :
    ∃ ref der, Plan G crit ref der ∧ ∀ r, (8 * bs.length ≤ 2147483646 ∨ amrStep G I crit junk S (cube lo (2 ^ e)) ss others bs = some r) →
      ∃ out, amrStep G I crit junk S (cube lo (2 ^ e)) ss others bs = some out ∧ Mesh e lo out ∧ Balanced (out.map Blk.box) ∧
        out.Perm ((List.range G.n).flatMap (newBlks I (blkAt bs) ref der)) := by
  obtain ⟨t, ht⟩ := hm
  have hok := h.amrOk ht hb
  obtain ⟨ref, der, ch, mid, P, e1, e2, e3⟩ := amrPass_ok hok I crit junk S bs h.count.symm (blkAt bs) (fun i hi => blkAt_eq (by rw [← h.count]; exact hi))
  refine ⟨ref, der, P, ?_⟩
  intro r hr
  have hbx := newBlks_boxes I (blkAt bs) (fun i hi => (h.box i _ (blkAt_eq (by rw [← h.count]; exact hi))).symm) crit P
  obtain ⟨t', ht'⟩ := out_tree hok P
  have hmid : (mid.map Blk.box).Perm (t'.boxes lo) := by rw [ht']; exact (e2.map Blk.box).trans hbx
  have hbal : Balanced (t'.boxes lo) := by rw [ht']; exact out_balanced hok P
  unfold amrStep at hr ⊢
  simp only [e1, Option.bind_eq_bind, Option.bind_some] at hr ⊢
  by_cases hc : (ch || others) = true
  · rw [if_pos hc] at hr ⊢
    have hl : mid.length ≤ 2147483646 := by
      rcases hr with hr | hr
      · have := e2.length_eq
        have := newBlks_length I (blkAt bs) ref der G.n
        rw [h.count] at *
        omega
      · by_contra hn
        unfold sortBlocks at hr
        rw [if_neg (by omega), if_pos (by omega)] at hr
        cases hr
    obtain ⟨out, o1, o2, o3⟩ := sortBlocks_ok he t' lo mid hmid hl ss
    exact ⟨out, o1, ⟨t', o3⟩, by rw [o3]; exact hbal, o2.trans e2⟩
  · rw [if_neg hc] at hr ⊢
    have hch : ch = false := by
      cases ch
      · rfl
      · simp at hc
    have := e3 hch
    refine ⟨mid, rfl, ⟨t, by rw [this]; exact ht⟩, by rw [this]; exact hb, e2⟩

/-- The states of the blocks of a patch over a run: a start on an octree, time steps that change only the states, and passes. -/
inductive Hist (e : Nat) (lo : V3 Int) (E : Nat) : List Blk → Prop
  | start (bs : List Blk) : Mesh e lo bs → Balanced (bs.map Blk.box) → Hist e lo E bs
  | evolve (bs bs' : List Blk) : Hist e lo E bs → bs'.map Blk.box = bs.map Blk.box → Hist e lo E bs'
  | pass (bs bs' : List Blk) (G : Grid) (I : Interp) (crit : Nat → Bool × Bool) (junk : Nat → Blk) (S : PassSched) (ss : Nat → Nat → List Nat) (others : Bool) :
      Hist e lo E bs → Describes G E bs → amrStep G I crit junk S (cube lo (2 ^ e)) ss others bs = some bs' → Hist e lo E bs'

theorem hist_ok {e : Nat} (he : e ≤ 21) {lo : V3 Int} {E : Nat} {bs : List Blk} (h : Hist e lo E bs) : Mesh e lo bs ∧ Balanced (bs.map Blk.box) := by
  induction h with
  | start bs h1 h2 => exact ⟨h1, h2⟩
  | evolve bs bs' _ hb ih =>
    obtain ⟨⟨t, ht⟩, h2⟩ := ih
    exact ⟨⟨t, by rw [hb, ht]⟩, by rw [hb]; exact h2⟩
  | pass bs bs' G I crit junk S ss others _ hd hs ih =>
    obtain ⟨ref, der, P, h⟩ := amrStep_ok he hd ih.1 ih.2 I crit junk S ss others
    obtain ⟨out, o1, o2, o3, -⟩ := h bs' (.inr hs)
    rw [hs] at o1
    rw [Option.some.inj o1]
    exact ⟨o2, o3⟩

/-- Powers of two: the sides of the leaves. -/
theorem boxes_pow {e : Nat} (t : Oct e) : ∀ (lo : V3 Int) (b : Box), b ∈ t.boxes lo → ∃ k ≤ e, b = cube b.lo (2 ^ k) := by
  induction t with
  | leaf e =>
    intro lo b hb
    rw [Oct.boxes, List.mem_singleton] at hb
    subst hb
    exact ⟨e, le_refl _, rfl⟩
  | @node e c ih =>
    intro lo b hb
    rw [Oct.boxes, List.mem_flatMap] at hb
    obtain ⟨r, -, hb⟩ := hb
    obtain ⟨k, h1, h2⟩ := ih r _ b hb
    exact ⟨k, by omega, h2⟩

open Classical in
/-- Blocks that are the leaves of an octree can be described. -/
theorem describes_exists {e : Nat} {lo : V3 Int} {bs : List Blk} (hm : Mesh e lo bs) (E : Nat) (hE : e ≤ E) (hE' : E ≤ 62) : ∃ G, Describes G E bs := by
  obtain ⟨t, ht⟩ := hm
  have hk : ∀ i : Nat, ∃ k ≤ e, ∀ b, bs[i]? = some b → b.box = cube b.box.lo (2 ^ k) := by
    intro i
    rcases hq : bs[i]? with _ | b
    · exact ⟨0, by omega, fun b hb => by cases hb⟩
    · have : b.box ∈ t.boxes lo := by rw [← ht]; exact List.mem_map_of_mem (List.mem_of_getElem? hq)
      obtain ⟨k, h1, h2⟩ := boxes_pow t lo _ this
      exact ⟨k, h1, fun b' hb' => by cases hb'; exact h2⟩
  choose k hk1 hk2 using hk
  refine ⟨⟨bs.length, fun i => E - k i, fun a => (List.range bs.length).filter fun b => Adjacent (blkAt bs a).box (blkAt bs b).box, fun i => (blkAt bs i).box⟩, ?_⟩
  constructor
  · rfl
  · intro i b hb
    dsimp only
    have := blkAt_eq (List.getElem?_eq_some_iff.1 hb).1
    rw [hb] at this
    rw [Option.some.inj this]
  · exact hE'
  · intro i; dsimp only; omega
  · intro i b hb
    dsimp only
    have h1 := hk1 i
    rw [hk2 i b hb, side_cube, ← pow_add]
    congr 1
    omega
  · intro a b A B hA hB
    dsimp only
    have h1 := blkAt_eq (List.getElem?_eq_some_iff.1 hA).1
    have h2 := blkAt_eq (List.getElem?_eq_some_iff.1 hB).1
    rw [hA] at h1
    rw [hB] at h2
    rw [List.mem_filter, List.mem_range, ← Option.some.inj h1, ← Option.some.inj h2]
    have := (List.getElem?_eq_some_iff.1 hB).1
    simp [this]

end Shamrock.Amr
