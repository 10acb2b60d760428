import Verif.Proof.AmrCsr
import Verif.Proof.AmrRTree
import Verif.Proof.AmrPlan
/-! Faces of boxes, and the rows of the graphs. -/
namespace Shamrock.Amr

/-! ### Specification -/

/-- Two segments `[l, h[` and `[l', h'[` overlap. -/
def Overlap (l h l' h' : Int) : Prop := max l l' < min h h'

instance (l h l' h' : Int) : Decidable (Overlap l h l' h') := by unfold Overlap; infer_instance

/-- `b` touches `a` through the face of `a` in direction `dir` (0: +x, 1: -x, 2: +y, 3: -y, 4: +z, 5: -z), on a piece of non-zero area. -/
def Faces : Nat → Box → Box → Prop
  | 0, a, b => a.hi.x = b.lo.x ∧ Overlap a.lo.y a.hi.y b.lo.y b.hi.y ∧ Overlap a.lo.z a.hi.z b.lo.z b.hi.z
  | 1, a, b => a.lo.x = b.hi.x ∧ Overlap a.lo.y a.hi.y b.lo.y b.hi.y ∧ Overlap a.lo.z a.hi.z b.lo.z b.hi.z
  | 2, a, b => a.hi.y = b.lo.y ∧ Overlap a.lo.x a.hi.x b.lo.x b.hi.x ∧ Overlap a.lo.z a.hi.z b.lo.z b.hi.z
  | 3, a, b => a.lo.y = b.hi.y ∧ Overlap a.lo.x a.hi.x b.lo.x b.hi.x ∧ Overlap a.lo.z a.hi.z b.lo.z b.hi.z
  | 4, a, b => a.hi.z = b.lo.z ∧ Overlap a.lo.x a.hi.x b.lo.x b.hi.x ∧ Overlap a.lo.y a.hi.y b.lo.y b.hi.y
  | _, a, b => a.lo.z = b.hi.z ∧ Overlap a.lo.x a.hi.x b.lo.x b.hi.x ∧ Overlap a.lo.y a.hi.y b.lo.y b.hi.y

instance (dir : Nat) (a b : Box) : Decidable (Faces dir a b) := by unfold Faces; split <;> infer_instance

/-- The opposite direction. -/
def opp : Nat → Nat
  | 0 => 1
  | 1 => 0
  | 2 => 3
  | 3 => 2
  | 4 => 5
  | _ => 4

/-- A box of non-zero volume. -/
def Solid (a : Box) : Prop := a.lo.x < a.hi.x ∧ a.lo.y < a.hi.y ∧ a.lo.z < a.hi.z

/-- No common point. -/
def Apart (a b : Box) : Prop := ∀ p, ¬ (Inside a p ∧ Inside b p)

/-- The boxes do not overlap. -/
def Separate (bs : List Box) : Prop := ∀ (i j : Nat) A B, i ≠ j → bs[i]? = some A → bs[j]? = some B → Apart A B

/-- Number of pairs of boxes with a common face in direction `dir`. -/
def facePairs (dir : Nat) (bs : List Box) : Nat := (bs.map fun a => (bs.filter fun b => decide (Faces dir a b)).length).sum

/-- The cells of the blocks, in the order of the fields: eight per block. -/
def cells (bs : List Box) : List Box := bs.flatMap fun (b : Box) => (List.range 8).map (cellOf b)

/-! ### Geometry -/

theorem volMeet_iff (a b : Box) : volMeet a b = true ↔ ∃ p, Inside a p ∧ Inside b p := by
  unfold volMeet Inside
  simp only [Bool.and_eq_true, decide_eq_true_eq]
  constructor
  · rintro ⟨⟨h1, h2⟩, h3⟩
    refine ⟨⟨max a.lo.x b.lo.x, max a.lo.y b.lo.y, max a.lo.z b.lo.z⟩, ?_⟩
    dsimp only
    rw [lt_min_iff] at h1 h2 h3
    exact ⟨⟨le_max_left _ _, h1.1, le_max_left _ _, h2.1, le_max_left _ _, h3.1⟩, ⟨le_max_right _ _, h1.2, le_max_right _ _, h2.2, le_max_right _ _, h3.2⟩⟩
  · rintro ⟨p, ⟨a1, a2, a3, a4, a5, a6⟩, ⟨b1, b2, b3, b4, b5, b6⟩⟩
    exact ⟨⟨lt_of_le_of_lt (max_le a1 b1) (lt_min a2 b2), lt_of_le_of_lt (max_le a3 b3) (lt_min a4 b4)⟩, lt_of_le_of_lt (max_le a5 b5) (lt_min a6 b6)⟩

theorem apart_iff (a b : Box) : Apart a b ↔ volMeet a b = false := by
  unfold Apart
  rw [← not_exists, ← volMeet_iff, Bool.not_eq_true]

theorem overlap_iff (l h l' h' : Int) : Overlap l h l' h' ↔ l < h ∧ l < h' ∧ l' < h ∧ l' < h' := by
  unfold Overlap
  rw [lt_min_iff, max_lt_iff, max_lt_iff]
  tauto

theorem volMeet_overlap (a b : Box) : volMeet a b = true ↔ Overlap a.lo.x a.hi.x b.lo.x b.hi.x ∧ Overlap a.lo.y a.hi.y b.lo.y b.hi.y ∧ Overlap a.lo.z a.hi.z b.lo.z b.hi.z := by
  unfold volMeet Overlap
  simp only [Bool.and_eq_true, decide_eq_true_eq, and_assoc]

/-- For boxes without common point the test of the code is the contact through the face. -/
theorem meet_faces (dir : Nat) (a b : Box) (ha : Solid a) (hb : Solid b) (h : Apart a b) : volMeet b (shiftBox a (dirOffset dir)) = true ↔ Faces dir a b := by
  rw [apart_iff, ← Bool.not_eq_true, volMeet_overlap] at h
  rw [volMeet_overlap]
  unfold Solid at ha hb
  unfold shiftBox
  simp only [overlap_iff] at *
  rcases dir with _ | _ | _ | _ | _ | dir <;> simp only [Faces, dirOffset, overlap_iff] <;> omega

theorem not_faces_self (dir : Nat) (a : Box) (ha : Solid a) : ¬ Faces dir a a := by
  unfold Solid at ha
  rcases dir with _ | _ | _ | _ | _ | dir <;> simp only [Faces, overlap_iff] <;> omega

theorem faces_opp (dir : Nat) (a b : Box) : Faces (opp dir) b a ↔ Faces dir a b := by
  rcases dir with _ | _ | _ | _ | _ | dir <;> simp only [Faces, opp, overlap_iff] <;> omega

theorem step_cases (x y z : Int) (h : x.natAbs + y.natAbs + z.natAbs = 1) : (x = 1 ∧ y = 0 ∧ z = 0) ∨ (x = -1 ∧ y = 0 ∧ z = 0) ∨
    (x = 0 ∧ y = 1 ∧ z = 0) ∨ (x = 0 ∧ y = -1 ∧ z = 0) ∨ (x = 0 ∧ y = 0 ∧ z = 1) ∨ (x = 0 ∧ y = 0 ∧ z = -1) := by
  have hx : x.natAbs = 0 ∨ x.natAbs = 1 := by omega
  have hy : y.natAbs = 0 ∨ y.natAbs = 1 := by omega
  have hz : z.natAbs = 0 ∨ z.natAbs = 1 := by omega
  rcases hx with hx | hx
  · rcases hy with hy | hy
    · have : z.natAbs = 1 := by omega
      rcases Int.natAbs_eq z with h | h
      · exact Or.inr (Or.inr (Or.inr (Or.inr (Or.inl ⟨by omega, by omega, by omega⟩))))
      · exact Or.inr (Or.inr (Or.inr (Or.inr (Or.inr ⟨by omega, by omega, by omega⟩))))
    · have : z.natAbs = 0 := by omega
      rcases Int.natAbs_eq y with h | h
      · exact Or.inr (Or.inr (Or.inl ⟨by omega, by omega, by omega⟩))
      · exact Or.inr (Or.inr (Or.inr (Or.inl ⟨by omega, by omega, by omega⟩)))
  · have : y.natAbs = 0 := by omega
    have : z.natAbs = 0 := by omega
    rcases Int.natAbs_eq x with h | h
    · exact Or.inl ⟨by omega, by omega, by omega⟩
    · exact Or.inr (Or.inl ⟨by omega, by omega, by omega⟩)

/-- Contact through one of the six faces. -/
theorem adjacent_faces (a b : Box) (ha : Solid a) (hb : Solid b) (h : Apart a b) : Adjacent a b ↔ ∃ dir < 6, Faces dir a b := by
  have hne : a ≠ b := by
    rintro rfl
    rw [apart_iff] at h
    have : volMeet a a = true := by
      rw [volMeet_overlap]; unfold Solid at ha; simp only [overlap_iff]; omega
    rw [this] at h; cases h
  constructor
  · rintro ⟨_, p, q, hp, hq, hs⟩
    have key : ∀ dir, q = ⟨p.x + (dirOffset dir).x, p.y + (dirOffset dir).y, p.z + (dirOffset dir).z⟩ → Faces dir a b := by
      intro dir e
      rw [← meet_faces dir a b ha hb h, volMeet_iff]
      refine ⟨q, hq, ?_⟩
      unfold Inside shiftBox at *
      rw [e]
      dsimp only at *
      omega
    have hc := step_cases _ _ _ hs
    clear hs hp hq h ha hb hne
    cases q with
    | mk qx qy qz =>
    dsimp only at hc
    rcases hc with ⟨x, y, z⟩ | ⟨x, y, z⟩ | ⟨x, y, z⟩ | ⟨x, y, z⟩ | ⟨x, y, z⟩ | ⟨x, y, z⟩
    · exact ⟨0, by omega, key 0 (by simp only [dirOffset, V3.mk.injEq]; omega)⟩
    · exact ⟨1, by omega, key 1 (by simp only [dirOffset, V3.mk.injEq]; omega)⟩
    · exact ⟨2, by omega, key 2 (by simp only [dirOffset, V3.mk.injEq]; omega)⟩
    · exact ⟨3, by omega, key 3 (by simp only [dirOffset, V3.mk.injEq]; omega)⟩
    · exact ⟨4, by omega, key 4 (by simp only [dirOffset, V3.mk.injEq]; omega)⟩
    · exact ⟨5, by omega, key 5 (by simp only [dirOffset, V3.mk.injEq]; omega)⟩
  · rintro ⟨dir, _, hf⟩
    rw [← meet_faces dir a b ha hb h, volMeet_iff] at hf
    obtain ⟨q, hq, hq'⟩ := hf
    refine ⟨hne, ⟨q.x - (dirOffset dir).x, q.y - (dirOffset dir).y, q.z - (dirOffset dir).z⟩, q, ?_, hq, ?_⟩
    · unfold Inside shiftBox at *
      dsimp only at *
      omega
    · unfold Step1
      dsimp only
      rcases dir with _ | _ | _ | _ | _ | dir <;> simp only [dirOffset] <;> omega

/-! ### Rows -/

theorem keepIf_ok (p : Nat → Option Bool) (q : Nat → Bool) : ∀ (l : List Nat), (∀ b ∈ l, p b = some (q b)) → keepIf p l = some (l.filter q) := by
  intro l
  induction l with
  | nil => intro _; rfl
  | cons b r ih =>
    intro h
    unfold keepIf
    rw [h b (by simp), ih fun c hc => h c (by simp [hc])]
    simp only [Option.bind_eq_bind, Option.bind_some, Option.pure_def, List.filter_cons]

theorem boxIn_meet (B a b : V3 Int) (c : V3 Int) (chk : Box) (h : volMeet ⟨B, c⟩ chk = true) (hin : BoxIn B c a b) : volMeet ⟨a, b⟩ chk = true := by
  rw [volMeet_overlap] at *
  simp only [overlap_iff] at *
  obtain ⟨⟨a1, a2, a3⟩, ⟨b1, b2, b3⟩⟩ := hin
  omega

/-- A row: the objects of the list with a common face, each once. -/
def IsRow (dir : Nat) (bs : List Box) (a : Nat) (row : List Nat) : Prop :=
  row.Nodup ∧ ∀ b, b ∈ row ↔ ∃ A B, bs[a]? = some A ∧ bs[b]? = some B ∧ Faces dir A B

theorem row_length {dir : Nat} {bs : List Box} {a : Nat} {A : Box} (hA : bs[a]? = some A) {row : List Nat} (h : IsRow dir bs a row) :
    row.length = (bs.filter fun b => decide (Faces dir A b)).length := by
  have hp : row.Perm ((List.range bs.length).filter fun b => ((bs[b]?).map fun B => decide (Faces dir A B)).getD false) := by
    rw [List.perm_ext_iff_of_nodup h.1 (List.nodup_range.filter _)]
    intro b
    rw [h.2 b, List.mem_filter, List.mem_range]
    constructor
    · rintro ⟨A', B, e1, e2, e3⟩
      rw [hA, Option.some.injEq] at e1
      subst e1
      exact ⟨(List.getElem?_eq_some_iff.1 e2).1, by rw [e2]; simpa using e3⟩
    · rintro ⟨e1, e2⟩
      rw [List.getElem?_eq_getElem e1] at e2
      exact ⟨A, _, hA, List.getElem?_eq_getElem e1, by simpa using e2⟩
  rw [hp.length_eq, ← List.countP_eq_length_filter, ← List.countP_eq_length_filter]
  have : bs = (List.range bs.length).map fun i => bs.getD i ⟨⟨0, 0, 0⟩, ⟨0, 0, 0⟩⟩ := by
    apply List.ext_getElem?
    intro i
    rw [List.getElem?_map]
    by_cases hi : i < bs.length
    · rw [List.getElem?_range hi, List.getElem?_eq_getElem hi, Option.map_some, List.getD_eq_getElem?_getD, List.getElem?_eq_getElem hi]; rfl
    · rw [List.getElem?_eq_none (by omega), List.getElem?_eq_none (by simpa using hi)]; rfl
  conv_rhs => rw [this]
  rw [List.countP_map]
  apply List.countP_congr
  intro i hi
  rw [List.mem_range] at hi
  rw [List.getElem?_eq_getElem hi]
  simp only [Option.map_some, Option.getD_some, Function.comp, List.getD_eq_getElem?_getD, List.getElem?_eq_getElem hi]

theorem rows_length {dir : Nat} {bs : List Box} {R : Nat → List Nat} (h : ∀ a < bs.length, IsRow dir bs a (R a)) :
    ((List.range bs.length).map R).flatten.length = facePairs dir bs := by
  unfold facePairs
  rw [List.length_flatten]
  congr 1
  apply List.ext_getElem?
  intro i
  rw [List.getElem?_map, List.getElem?_map, List.getElem?_map]
  by_cases hi : i < bs.length
  · rw [List.getElem?_range hi, List.getElem?_eq_getElem hi, Option.map_some, Option.map_some, Option.map_some, row_length (List.getElem?_eq_getElem hi) (h i hi)]
  · rw [List.getElem?_eq_none (l := bs) (by omega), List.getElem?_eq_none (l := List.range _) (by simpa using hi)]; rfl

/-- The links between blocks. -/
theorem blockGraph_ok {bs : List Box} (t : BVH Int) (hs : Separate bs) (hv : ∀ b ∈ bs, Solid b)
    (ht : ∀ accept, ∃ found, rtreeFor mcode64 t accept = some found ∧ found.Nodup ∧ (∀ i ∈ found, i < bs.length) ∧
      ∀ (i : Nat) B, bs[i]? = some B → (∀ id a b, BoxIn B.lo B.hi a b → accept id a b = true) → i ∈ found) (dir : Nat) (hc : facePairs dir bs < 2 ^ 32) :
    ∃ R, (∀ a < bs.length, IsRow dir bs a (R a)) ∧ ∀ junk sched, ∃ g, blockGraph junk sched bs t dir = some g ∧ GraphOf g bs.length R := by
  have hitem : ∀ a, ∃ row, a < bs.length → blockItem bs t dir a = some row ∧ IsRow dir bs a row := by
    intro a
    by_cases ha : a < bs.length
    · have hA : bs[a]? = some bs[a] := List.getElem?_eq_getElem ha
      generalize bs[a] = A at hA
      have hAm := List.mem_of_getElem? hA
      obtain ⟨found, f1, f2, f3, f4⟩ := ht fun _ lo hi => volMeet ⟨lo, hi⟩ (shiftBox A (dirOffset dir))
      let q : Nat → Bool := fun b => ((bs[b]?).map fun B => volMeet B (shiftBox A (dirOffset dir)) && decide (b ≠ a)).getD false
      refine ⟨found.filter q, fun _ => ⟨?_, f2.filter _, fun b => ?_⟩⟩
      · unfold blockItem
        simp only [hA, f1, Option.bind_eq_bind, Option.bind_some]
        apply keepIf_ok
        intro b hb
        show _ = some (((bs[b]?).map fun B => volMeet B (shiftBox A (dirOffset dir)) && decide (b ≠ a)).getD false)
        rw [List.getElem?_eq_getElem (f3 b hb)]; rfl
      · rw [List.mem_filter]
        constructor
        · rintro ⟨h1, h2⟩
          obtain ⟨B, hB⟩ : ∃ B, bs[b]? = some B := ⟨_, List.getElem?_eq_getElem (f3 b h1)⟩
          have h2' : (((bs[b]?).map fun B => volMeet B (shiftBox A (dirOffset dir)) && decide (b ≠ a)).getD false) = true := h2
          rw [hB] at h2'
          simp only [Option.map_some, Option.getD_some, Bool.and_eq_true, decide_eq_true_eq] at h2'
          exact ⟨A, B, hA, hB, (meet_faces dir A B (hv A hAm) (hv B (List.mem_of_getElem? hB)) (hs a b A B (Ne.symm h2'.2) hA hB)).1 h2'.1⟩
        · rintro ⟨A', B, e1, e2, e3⟩
          rw [hA, Option.some.injEq] at e1
          subst e1
          have hne : b ≠ a := by
            rintro rfl
            rw [hA, Option.some.injEq] at e2
            subst e2
            exact not_faces_self dir A (hv A hAm) e3
          have hm := (meet_faces dir A B (hv A hAm) (hv B (List.mem_of_getElem? e2)) (hs a b A B (Ne.symm hne) hA e2)).2 e3
          refine ⟨f4 b B e2 fun id x y hin => boxIn_meet B.lo x y B.hi _ hm hin, ?_⟩
          show (((bs[b]?).map fun B => volMeet B (shiftBox A (dirOffset dir)) && decide (b ≠ a)).getD false) = true
          rw [e2]
          simp only [Option.map_some, Option.getD_some, hm, Bool.true_and, decide_eq_true_eq]
          exact hne
    · exact ⟨[], fun h => absurd h ha⟩
  choose R hR using hitem
  refine ⟨R, fun a ha => (hR a ha).2, fun junk sched => ?_⟩
  exact neighGraph_ok junk sched bs.length _ R (fun a ha => (hR a ha).1) (by rw [rows_length fun a ha => (hR a ha).2]; exact hc)

/-! ### Cells -/

/-- The cells of a block have a non-zero volume. -/
def Wide (b : Box) : Prop := b.lo.x + 2 ≤ b.hi.x ∧ b.lo.y + 2 ≤ b.hi.y ∧ b.lo.z + 2 ≤ b.hi.z

theorem half (d : Int) (h : 2 ≤ d) : 1 ≤ d.tdiv 2 ∧ 2 * d.tdiv 2 ≤ d := by
  rw [Int.tdiv_eq_ediv_of_nonneg (by omega)]; omega

theorem cells_get (bs : List Box) (c : Nat) : (cells bs)[c]? = (bs[c / 8]?).map fun b => cellOf b (c % 8) := by
  unfold cells
  induction bs generalizing c with
  | nil => simp
  | cons b r ih =>
    rw [List.flatMap_cons]
    by_cases h : c < 8
    · rw [List.getElem?_append_left (by simpa using h), List.getElem?_map, List.getElem?_range h, show c / 8 = 0 by omega, show c % 8 = c by omega]; rfl
    · rw [List.getElem?_append_right (by simpa using h), List.length_map, List.length_range, ih, show c / 8 = (c - 8) / 8 + 1 by omega, show c % 8 = (c - 8) % 8 by omega]
      rfl

theorem cells_length (bs : List Box) : (cells bs).length = bs.length * 8 := by
  unfold cells
  induction bs with
  | nil => rfl
  | cons b r ih => rw [List.flatMap_cons, List.length_append, ih, List.length_map, List.length_range, List.length_cons]; omega

theorem cellBox_sub (b : Box) (hb : Wide b) (x y z : Nat) (hx : x < 2) (hy : y < 2) (hz : z < 2) :
    Solid (cellBox b x y z) ∧ ∀ p, Inside (cellBox b x y z) p → Inside b p := by
  obtain ⟨h1, h2, h3⟩ := hb
  have a1 := half (b.hi.x - b.lo.x) (by omega)
  have a2 := half (b.hi.y - b.lo.y) (by omega)
  have a3 := half (b.hi.z - b.lo.z) (by omega)
  unfold cellBox Solid Inside
  dsimp only
  generalize (b.hi.x - b.lo.x).tdiv 2 = dx at *
  generalize (b.hi.y - b.lo.y).tdiv 2 = dy at *
  generalize (b.hi.z - b.lo.z).tdiv 2 = dz at *
  have cx : x = 0 ∨ x = 1 := by omega
  have cy : y = 0 ∨ y = 1 := by omega
  have cz : z = 0 ∨ z = 1 := by omega
  constructor
  · rcases cx with rfl | rfl <;> rcases cy with rfl | rfl <;> rcases cz with rfl | rfl <;> norm_num <;> omega
  · intro p
    rcases cx with rfl | rfl <;> rcases cy with rfl | rfl <;> rcases cz with rfl | rfl <;> norm_num <;> intros <;> omega

theorem cellBox_apart (b : Box) (hb : Wide b) (x y z x' y' z' : Nat) (hx : x < 2) (hy : y < 2) (hz : z < 2) (hx' : x' < 2) (hy' : y' < 2) (hz' : z' < 2)
    (hne : ¬ (x = x' ∧ y = y' ∧ z = z')) : Apart (cellBox b x y z) (cellBox b x' y' z') := by
  obtain ⟨h1, h2, h3⟩ := hb
  have a1 := half (b.hi.x - b.lo.x) (by omega)
  have a2 := half (b.hi.y - b.lo.y) (by omega)
  have a3 := half (b.hi.z - b.lo.z) (by omega)
  unfold Apart cellBox Inside
  dsimp only
  generalize (b.hi.x - b.lo.x).tdiv 2 = dx at *
  generalize (b.hi.y - b.lo.y).tdiv 2 = dy at *
  generalize (b.hi.z - b.lo.z).tdiv 2 = dz at *
  have key : ∀ (u v : Nat) (l d t : Int), u < 2 → v < 2 → l + u * d ≤ t → t < l + (u + 1) * d → l + v * d ≤ t → t < l + (v + 1) * d → u = v := by
    intro u v l d t hu hv e1 e2 e3 e4
    have cu : u = 0 ∨ u = 1 := by omega
    have cv : v = 0 ∨ v = 1 := by omega
    rcases cu with rfl | rfl <;> rcases cv with rfl | rfl <;> norm_num at * <;> omega
  rintro p ⟨⟨e1, e2, e3, e4, e5, e6⟩, ⟨f1, f2, f3, f4, f5, f6⟩⟩
  exact hne ⟨key _ _ _ _ _ hx hx' e1 e2 f1 f2, key _ _ _ _ _ hy hy' e3 e4 f3 f4, key _ _ _ _ _ hz hz' e5 e6 f5 f6⟩

theorem coordX_lt (i : Nat) (hi : i < 8) : (coordX i).1 < 2 ∧ (coordX i).2.1 < 2 ∧ (coordX i).2.2 < 2 := by
  unfold coordX; dsimp only; omega

theorem getIndex_coordX (i : Nat) (hi : i < 8) : getIndex (coordX i).1 (coordX i).2.1 (coordX i).2.2 = i := by
  unfold coordX getIndex; dsimp only; omega

theorem coordX_getIndex (x y z : Nat) (hx : x < 2) (hy : y < 2) (hz : z < 2) : coordX (getIndex x y z) = (x, y, z) ∧ getIndex x y z < 8 := by
  unfold coordX getIndex
  refine ⟨?_, by omega⟩
  rw [Prod.mk.injEq, Prod.mk.injEq]
  omega

theorem cells_solid {bs : List Box} (hw : ∀ b ∈ bs, Wide b) : ∀ c ∈ cells bs, Solid c := by
  intro c hc
  unfold cells at hc
  obtain ⟨b, hb, hc⟩ := List.mem_flatMap.1 hc
  obtain ⟨i, hi, rfl⟩ := List.mem_map.1 hc
  obtain ⟨h1, h2, h3⟩ := coordX_lt i (List.mem_range.1 hi)
  exact (cellBox_sub b (hw b hb) _ _ _ h1 h2 h3).1

theorem cellOf_sub {b : Box} (hb : Wide b) (i : Nat) (hi : i < 8) : ∀ p, Inside (cellOf b i) p → Inside b p := by
  obtain ⟨h1, h2, h3⟩ := coordX_lt i hi
  exact (cellBox_sub b hb _ _ _ h1 h2 h3).2

theorem cells_separate {bs : List Box} (hw : ∀ b ∈ bs, Wide b) (hs : Separate bs) : Separate (cells bs) := by
  intro i j A B hij hA hB
  rw [cells_get, Option.map_eq_some_iff] at hA hB
  obtain ⟨a, ha, rfl⟩ := hA
  obtain ⟨b, hb, rfl⟩ := hB
  by_cases he : i / 8 = j / 8
  · rw [he, hb, Option.some.injEq] at ha
    subst ha
    obtain ⟨h1, h2, h3⟩ := coordX_lt (i % 8) (by omega)
    obtain ⟨k1, k2, k3⟩ := coordX_lt (j % 8) (by omega)
    refine cellBox_apart b (hw b (List.mem_of_getElem? hb)) _ _ _ _ _ _ h1 h2 h3 k1 k2 k3 ?_
    rintro ⟨e1, e2, e3⟩
    have g1 := getIndex_coordX (i % 8) (by omega)
    have g2 := getIndex_coordX (j % 8) (by omega)
    rw [e1, e2, e3, g2] at g1
    omega
  · rintro p ⟨hp, hq⟩
    exact hs _ _ a b he ha hb p ⟨cellOf_sub (hw a (List.mem_of_getElem? ha)) _ (by omega) p hp, cellOf_sub (hw b (List.mem_of_getElem? hb)) _ (by omega) p hq⟩

theorem cellsMet_mem (B : Box) (b : Nat) (chk : Box) (c i : Nat) : i ∈ cellsMet B b chk c ↔ i / 8 = b ∧ volMeet (cellOf B (i % 8)) chk = true ∧ c ≠ i := by
  unfold cellsMet
  simp only [List.mem_flatMap, List.mem_range]
  constructor
  · rintro ⟨x, hx, y, hy, z, hz, h⟩
    obtain ⟨g1, g2⟩ := coordX_getIndex x y z hx hy hz
    split at h
    · rename_i hc
      rw [List.mem_singleton] at h
      subst h
      simp only [Bool.and_eq_true, decide_eq_true_eq] at hc
      rw [show (b * 8 + getIndex x y z) / 8 = b by omega, show (b * 8 + getIndex x y z) % 8 = getIndex x y z by omega]
      refine ⟨rfl, ?_, hc.2⟩
      unfold cellOf
      rw [g1]; exact hc.1
    · exact absurd h List.not_mem_nil
  · rintro ⟨rfl, h2, h3⟩
    obtain ⟨k1, k2, k3⟩ := coordX_lt (i % 8) (by omega)
    refine ⟨_, k1, _, k2, _, k3, ?_⟩
    rw [getIndex_coordX (i % 8) (by omega), show i / 8 * 8 + i % 8 = i by omega]
    unfold cellOf at h2
    rw [if_pos (by simp only [Bool.and_eq_true, decide_eq_true_eq]; exact ⟨h2, h3⟩)]
    simp

theorem cellsMet_nodup (B : Box) (b : Nat) (chk : Box) (c : Nat) : (cellsMet B b chk c).Nodup := by
  have hsub : (cellsMet B b chk c).Sublist ((List.range 2).flatMap fun (x : Nat) => (List.range 2).flatMap fun (y : Nat) => (List.range 2).flatMap fun (z : Nat) => [b * 8 + getIndex x y z]) := by
    unfold cellsMet
    have gen : ∀ (l : List Nat) (f g : Nat → List Nat), (∀ x, (f x).Sublist (g x)) → (l.flatMap f).Sublist (l.flatMap g) := by
      intro l f g h
      induction l with
      | nil => exact List.Sublist.refl _
      | cons a l ih => rw [List.flatMap_cons, List.flatMap_cons]; exact (h a).append ih
    refine gen _ _ _ fun x => gen _ _ _ fun y => gen _ _ _ fun z => ?_
    split
    · exact List.Sublist.refl _
    · exact List.nil_sublist _
  refine hsub.nodup ?_
  have : ((List.range 2).flatMap fun (x : Nat) => (List.range 2).flatMap fun (y : Nat) => (List.range 2).flatMap fun (z : Nat) => [b * 8 + getIndex x y z]) =
      ((List.range 2).flatMap fun (x : Nat) => (List.range 2).flatMap fun (y : Nat) => (List.range 2).flatMap fun (z : Nat) => [getIndex x y z]).map (b * 8 + ·) := by
    simp only [List.map_flatMap, List.map_cons, List.map_nil]
  rw [this, List.nodup_map_iff (fun _ _ h => by simpa using h)]
  decide

/-- The links between cells. -/
theorem cellGraph_ok {bs : List Box} (hs : Separate bs) (hw : ∀ b ∈ bs, Wide b) (R : Nat → List Nat) (dir : Nat)
    (hR : ∀ a < bs.length, IsRow dir bs a (R a)) (hc : facePairs dir (cells bs) < 2 ^ 32) :
    ∃ C, (∀ c < bs.length * 8, IsRow dir (cells bs) c (C c)) ∧ ∀ g, GraphOf g bs.length R → ∀ junk sched junk2 sched2,
      ∃ gc, cellGraph junk sched junk2 sched2 bs g dir = some gc ∧ GraphOf gc (bs.length * 8) C ∧ gc.ante = (List.range (bs.length * 8)).flatMap fun i => (C i).map fun _ => i := by
  have hsc := cells_separate hw hs
  have hvc := cells_solid hw
  have hitem : ∀ c, ∃ row, c < bs.length * 8 → (∀ g, GraphOf g bs.length R → cellItem bs g dir c = some row) ∧ IsRow dir (cells bs) c row := by
    intro c
    by_cases hcl : c < bs.length * 8
    · have ha : c / 8 < bs.length := by omega
      have hA : bs[c / 8]? = some bs[c / 8] := List.getElem?_eq_getElem ha
      generalize bs[c / 8] = A at hA
      have hAm := List.mem_of_getElem? hA
      obtain ⟨r1, r2⟩ := hR _ ha
      have hcell : (cells bs)[c]? = some (cellOf A (c % 8)) := by rw [cells_get, hA]; rfl
      have hin : ∀ b ∈ c / 8 :: R (c / 8), b < bs.length := by
        intro b hb
        rcases List.mem_cons.1 hb with rfl | hb
        · exact ha
        · obtain ⟨_, B, _, e, _⟩ := (r2 b).1 hb
          exact (List.getElem?_eq_some_iff.1 e).1
      have hnd : (c / 8 :: R (c / 8)).Nodup := by
        rw [List.nodup_cons]
        refine ⟨fun hm => ?_, r1⟩
        obtain ⟨A', B, e1, e2, e3⟩ := (r2 _).1 hm
        rw [hA, Option.some.injEq] at e1 e2
        subst e1 e2
        have hwA := hw A hAm
        exact not_faces_self dir A (by unfold Wide at hwA; unfold Solid; omega) e3
      refine ⟨((c / 8 :: R (c / 8)).flatMap fun (b : Nat) => cellsMet (bs.getD b A) b (shiftBox (cellOf A (c % 8)) (dirOffset dir)) c), fun _ => ⟨?_, ?_, fun i => ?_⟩⟩
      · intro g hg
        unfold cellItem
        simp only [hA, hg.forEach _ ha, Option.bind_eq_bind, Option.bind_some, Option.pure_def]
        rw [mapM_opt_map _ (fun b => cellsMet (bs.getD b A) b (shiftBox (cellOf A (c % 8)) (dirOffset dir)) c) _ (fun b hb => by
          rw [List.getD_eq_getElem?_getD, List.getElem?_eq_getElem (hin b hb)]; rfl), Option.bind_some, List.flatMap_def]
      · rw [List.nodup_flatMap]
        refine ⟨fun b _ => cellsMet_nodup _ _ _ _, hnd.imp ?_⟩
        intro b b' hne x hx hx'
        rw [cellsMet_mem] at hx hx'
        exact hne (hx.1.symm.trans hx'.1)
      · rw [List.mem_flatMap]
        constructor
        · rintro ⟨b, hb, hi⟩
          rw [cellsMet_mem] at hi
          obtain ⟨e1, e2, e3⟩ := hi
          have hb' := hin b hb
          have hB : bs[b]? = some (bs.getD b A) := by rw [List.getD_eq_getElem?_getD, List.getElem?_eq_getElem hb']; rfl
          have hci : (cells bs)[i]? = some (cellOf (bs.getD b A) (i % 8)) := by rw [cells_get, e1, hB]; rfl
          exact ⟨_, _, hcell, hci, (meet_faces dir _ _ (hvc _ (List.mem_of_getElem? hcell)) (hvc _ (List.mem_of_getElem? hci)) (hsc _ _ _ _ e3 hcell hci)).1 e2⟩
        · rintro ⟨X, Y, e1, e2, e3⟩
          rw [hcell, Option.some.injEq] at e1
          subst e1
          have e2' := e2
          rw [cells_get, Option.map_eq_some_iff] at e2'
          obtain ⟨B, hB, rfl⟩ := e2'
          have hne : c ≠ i := by
            rintro rfl
            rw [hcell, Option.some.injEq] at e2
            rw [← e2] at e3
            exact not_faces_self dir _ (hvc _ (List.mem_of_getElem? hcell)) e3
          have hm := (meet_faces dir _ _ (hvc _ (List.mem_of_getElem? hcell)) (hvc _ (List.mem_of_getElem? e2)) (hsc _ _ _ _ hne hcell e2)).2 e3
          refine ⟨i / 8, ?_, ?_⟩
          · by_cases hsame : i / 8 = c / 8
            · rw [hsame]; exact List.mem_cons_self
            · apply List.mem_cons_of_mem
              rw [r2]
              refine ⟨A, B, hA, hB, ?_⟩
              have hwA := hw A hAm
              have hwB := hw B (List.mem_of_getElem? hB)
              rw [← meet_faces dir A B (by unfold Wide at hwA; unfold Solid; omega) (by unfold Wide at hwB; unfold Solid; omega) (hs _ _ _ _ (Ne.symm hsame) hA hB), volMeet_iff]
              rw [volMeet_iff] at hm
              obtain ⟨p, p1, p2⟩ := hm
              refine ⟨p, cellOf_sub hwB _ (by omega) p p1, ?_⟩
              have := cellOf_sub hwA (c % 8) (by omega) ⟨p.x - (dirOffset dir).x, p.y - (dirOffset dir).y, p.z - (dirOffset dir).z⟩ (by
                unfold Inside shiftBox at *; dsimp only at *; omega)
              unfold Inside shiftBox at *
              dsimp only at *
              omega
          · rw [cellsMet_mem, List.getD_eq_getElem?_getD, hB]
            exact ⟨rfl, hm, hne⟩
    · exact ⟨[], fun h => absurd h hcl⟩
  choose C hC using hitem
  refine ⟨C, fun c hc => (hC c hc).2, fun g hg junk sched junk2 sched2 => ?_⟩
  obtain ⟨g1, e1, e2⟩ := neighGraph_ok junk sched (bs.length * 8) _ C (fun a ha => (hC a ha).1 g hg) (by
    rw [← cells_length, rows_length fun a ha => (hC a (by rw [← cells_length]; exact ha)).2]; exact hc)
  obtain ⟨g2, e3, e4, e5⟩ := antecedent_ok junk2 sched2 g1 _ C e2
  refine ⟨g2, ?_, e4, e5⟩
  unfold cellGraph
  rw [e1]
  exact e3

end Shamrock.Amr
