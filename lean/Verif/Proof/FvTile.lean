import Verif.Proof.FvSlope
/-! Patches of a periodic grid with their ghost blocks: the faces and the neighbours seen from each side. -/
namespace Shamrock.Fv
open Amr

/-! ### Specification -/

/-- Coordinate of a vector. -/
def V3.at (v : V3 Int) : Nat → Int
  | 0 => v.x
  | 1 => v.y
  | _ => v.z

/-- `A` is a part of `P`. -/
def Within (A P : Box) : Prop := ∀ j < 3, V3.at P.lo j ≤ V3.at A.lo j ∧ V3.at A.hi j ≤ V3.at P.hi j

/-- The closed boxes have a common point (for boxes with ordered bounds). -/
def Meets (A P : Box) : Prop := ∀ j < 3, V3.at A.lo j ≤ V3.at P.hi j ∧ V3.at P.lo j ≤ V3.at A.hi j

def mulV (k L : V3 Int) : V3 Int := ⟨k.x * L.x, k.y * L.y, k.z * L.z⟩
def addV (k l : V3 Int) : V3 Int := ⟨k.x + l.x, k.y + l.y, k.z + l.z⟩
def origin : V3 Int := ⟨0, 0, 0⟩

/-- A block of a patch in a tile of space: patch, number of the block, tile. -/
abbrev Lab : Type := Nat × Nat × V3 Int

/-- The box of a labelled block: tiles have the size `L` of the domain. -/
def blockAt (blk : Nat → List Box) (L : V3 Int) (l : Lab) : Box := shiftBox ((blk l.1).getD l.2.1 box0) (mulV l.2.2 L)

/-- Patches `0` to `m - 1` of a periodic domain of size `L`; the mesh of patch `p` has the blocks labelled `lab p`: its own blocks first, then the others that
touch its box `pb p`, all once. -/
structure Tiling (m : Nat) (blk : Nat → List Box) (pb : Nat → Box) (L : V3 Int) (lab : Nat → List Lab) : Prop where
  cube : ∀ p < m, ∀ b ∈ blk p, Cube2 b
  inside : ∀ p < m, ∀ b ∈ blk p, Within b (pb p)
  apart : ∀ l l' : Lab, l.1 < m → l'.1 < m → l.2.1 < (blk l.1).length → l'.2.1 < (blk l'.1).length → l ≠ l' → Apart (blockAt blk L l) (blockAt blk L l')
  nodup : ∀ p < m, (lab p).Nodup
  mem : ∀ p < m, ∀ l : Lab, l ∈ lab p ↔ l.1 < m ∧ l.2.1 < (blk l.1).length ∧ Meets (blockAt blk L l) (pb p)
  own : ∀ p < m, ∀ i < (blk p).length, (lab p)[i]? = some (p, i, origin)

/-- The mesh of a patch. -/
def meshOf (blk : Nat → List Box) (L : V3 Int) (lab : Nat → List Lab) (p : Nat) : List Box := (lab p).map (blockAt blk L)

/-- Label of the block of a cell. -/
def labD (lab : Nat → List Lab) (p d : Nat) : Lab := (lab p).getD (d / 8) (0, 0, origin)

/-- The cell of which cell `d` of patch `p` is an image, and its displacement. -/
def srcOf (lab : Nat → List Lab) (p d : Nat) : Nat × Nat := ((labD lab p d).1, 8 * (labD lab p d).2.1 + d % 8)
def shOf (lab : Nat → List Lab) (L : V3 Int) (p d : Nat) : V3 Int := mulV (labD lab p d).2.2 L

/-- Width of a block. -/
def bwidth (b : Box) : Int := b.hi.x - b.lo.x

/-- The grid is graded and aligned: each block lies at a multiple of its width from `o`, the size of the domain is a multiple of this width, and blocks with
a common face have the same width or one is twice as wide. -/
structure Graded (m : Nat) (blk : Nat → List Box) (L o : V3 Int) : Prop where
  align : ∀ p < m, ∀ b ∈ blk p, ∀ j < 3, bwidth b ∣ V3.at b.lo j - V3.at o j ∧ bwidth b ∣ V3.at L j
  two : ∀ l l' : Lab, l.1 < m → l'.1 < m → l.2.1 < (blk l.1).length → l'.2.1 < (blk l'.1).length → (∃ dir < 6, Faces dir (blockAt blk L l) (blockAt blk L l')) →
    bwidth (blockAt blk L l) = bwidth (blockAt blk L l') ∨ bwidth (blockAt blk L l) = 2 * bwidth (blockAt blk L l') ∨ 2 * bwidth (blockAt blk L l) = bwidth (blockAt blk L l')

/-! ### Axes -/

theorem lt3 {j : Nat} (h : j < 3) : j = 0 ∨ j = 1 ∨ j = 2 := by omega

theorem faces_axis {dir : Nat} (hd : dir < 6) (A B : Box) : Faces dir A B ↔
    (if dir % 2 = 0 then V3.at A.hi (dir / 2) = V3.at B.lo (dir / 2) else V3.at A.lo (dir / 2) = V3.at B.hi (dir / 2)) ∧
      ∀ j < 3, j ≠ dir / 2 → Overlap (V3.at A.lo j) (V3.at A.hi j) (V3.at B.lo j) (V3.at B.hi j) := by
  have all3 : ∀ (i : Nat) (P : Nat → Prop), (∀ j < 3, j ≠ i → P j) ↔ (0 ≠ i → P 0) ∧ (1 ≠ i → P 1) ∧ (2 ≠ i → P 2) := by
    intro i P
    constructor
    · exact fun h => ⟨h 0 (by omega), h 1 (by omega), h 2 (by omega)⟩
    · rintro ⟨a, b, c⟩ j hj hne
      rcases lt3 hj with rfl | rfl | rfl
      exacts [a hne, b hne, c hne]
  rw [all3]
  interval_cases dir <;> simp [Faces, V3.at]

theorem apart_axis {A B : Box} (h : Apart A B) : ∃ j < 3, ¬ Overlap (V3.at A.lo j) (V3.at A.hi j) (V3.at B.lo j) (V3.at B.hi j) := by
  rw [apart_iff] at h
  by_contra hc
  push Not at hc
  have := (volMeet_overlap A B).2 ⟨hc 0 (by omega), hc 1 (by omega), hc 2 (by omega)⟩
  rw [h] at this
  cases this

theorem at_shift (b : Box) (s : V3 Int) (j : Nat) : V3.at (shiftBox b s).lo j = V3.at b.lo j + V3.at s j ∧ V3.at (shiftBox b s).hi j = V3.at b.hi j + V3.at s j := by
  rcases j with _ | _ | j <;> exact ⟨rfl, rfl⟩

theorem at_mulV (k L : V3 Int) (j : Nat) : V3.at (mulV k L) j = V3.at k j * V3.at L j := by
  rcases j with _ | _ | j <;> rfl

theorem cube_axis {b : Box} (h : Cube2 b) : ∃ k : Int, 0 < k ∧ bwidth b = 2 * k ∧ (∀ j < 3, V3.at b.hi j = V3.at b.lo j + 2 * k) ∧
    ∀ i < 8, ∃ w : Nat → Int, (∀ j < 3, w j = 0 ∨ w j = k) ∧ ∀ j < 3, V3.at (cellOf b i).lo j = V3.at b.lo j + w j ∧
      V3.at (cellOf b i).hi j = V3.at b.lo j + w j + k := by
  obtain ⟨k, h0, h1, h2, h3⟩ := h
  refine ⟨k, h0, by unfold bwidth; omega, ?_, ?_⟩
  · intro j hj
    rcases lt3 hj with rfl | rfl | rfl
    exacts [h1, h2, h3]
  · intro i hi
    obtain ⟨c1, c2, c3⟩ := coordX_lt i hi
    refine ⟨V3.at ⟨(coordX i).1 * k, (coordX i).2.1 * k, (coordX i).2.2 * k⟩, ?_, ?_⟩
    · have key : ∀ n : Nat, n < 2 → (n : Int) * k = 0 ∨ (n : Int) * k = k := by
        intro n hn
        obtain rfl | rfl : n = 0 ∨ n = 1 := by omega
        · exact Or.inl (by simp)
        · exact Or.inr (by simp)
      intro j hj
      rcases lt3 hj with rfl | rfl | rfl
      exacts [key _ c1, key _ c2, key _ c3]
    · rw [cellOf_cube h0 h1 h2 h3]
      intro j hj
      rcases lt3 hj with rfl | rfl | rfl <;> exact ⟨rfl, rfl⟩

theorem cellOf_shift (b : Box) (s : V3 Int) (i : Nat) : cellOf (shiftBox b s) i = shiftBox (cellOf b i) s := by
  unfold cellOf Amr.cellBox shiftBox
  simp only [Box.mk.injEq, V3.mk.injEq, add_sub_add_right_eq_sub]
  refine ⟨⟨?_, ?_, ?_⟩, ?_, ?_, ?_⟩ <;> ring

theorem cube_shift {b : Box} (h : Cube2 b) (s : V3 Int) : Cube2 (shiftBox b s) := by
  obtain ⟨k, h0, h1, h2, h3⟩ := h
  refine ⟨k, h0, ?_, ?_, ?_⟩ <;> simp only [shiftBox] <;> omega

theorem shift_shift (b : Box) (s t : V3 Int) : shiftBox (shiftBox b s) t = shiftBox b (addV s t) := by
  unfold shiftBox addV
  simp only [Box.mk.injEq, V3.mk.injEq]
  refine ⟨⟨?_, ?_, ?_⟩, ?_, ?_, ?_⟩ <;> ring

/-! ### One axis -/

/-- A segment at a multiple of its length `s`, `s` being `h`, `2 h` or `4 h`, contains each segment of length `h` that it meets, at a multiple of `h`. -/
theorem cover {h s l a o : Int} (hh : 0 < h) (hs : s = h ∨ s = 2 * h ∨ s = 4 * h) (hl : s ∣ l - o) (ha : h ∣ a - o) (h1 : l < a + h) (h2 : a < l + s) :
    l ≤ a ∧ a + h ≤ l + s := by
  have hd : h ∣ s := by
    rcases hs with rfl | rfl | rfl
    exacts [dvd_refl _, Dvd.intro_left 2 rfl, Dvd.intro_left 4 rfl]
  obtain ⟨q, hq⟩ := hd.trans hl
  obtain ⟨r, hr⟩ := ha
  obtain ⟨t, ht⟩ := hd
  have el : l = o + h * q := by omega
  have ea : a = o + h * r := by omega
  subst el ea ht
  have k1 : q < r + 1 := by
    have : h * q < h * (r + 1) := by rw [mul_add, mul_one]; omega
    exact lt_of_mul_lt_mul_left this hh.le
  have k2 : r < q + t := by
    have : h * r < h * (q + t) := by rw [mul_add]; omega
    exact lt_of_mul_lt_mul_left this hh.le
  have j1 : h * q ≤ h * r := mul_le_mul_of_nonneg_left (by omega) hh.le
  have j2 : h * (r + 1) ≤ h * (q + t) := mul_le_mul_of_nonneg_left (by omega) hh.le
  rw [mul_add, mul_one] at j2
  rw [mul_add] at j2
  omega

/-! ### Faces of blocks and cells -/

/-- Cells of two distinct blocks with a common face: the blocks have a common face in this direction. -/
theorem block_faces {A B : Box} (hA : Cube2 A) (hB : Cube2 B) (hab : Apart A B) {dir ia ib : Nat} (hd : dir < 6) (h1 : ia < 8) (h2 : ib < 8)
    (h : Faces dir (cellOf A ia) (cellOf B ib)) : Faces dir A B := by
  obtain ⟨ka, a0, -, a2, a3⟩ := cube_axis hA
  obtain ⟨kb, b0, -, b2, b3⟩ := cube_axis hB
  obtain ⟨wa, a4, a5⟩ := a3 ia h1
  obtain ⟨wb, b4, b5⟩ := b3 ib h2
  rw [faces_axis hd] at h ⊢
  obtain ⟨f1, f2⟩ := h
  have hov : ∀ j < 3, j ≠ dir / 2 → Overlap (V3.at A.lo j) (V3.at A.hi j) (V3.at B.lo j) (V3.at B.hi j) := by
    intro j hj hne
    have := f2 j hj hne
    rw [overlap_iff] at this ⊢
    have := a2 j hj; have := a4 j hj; have := a5 j hj
    have := b2 j hj; have := b4 j hj; have := b5 j hj
    omega
  refine ⟨?_, hov⟩
  obtain ⟨j, hj, hno⟩ := apart_axis hab
  have hjd : j = dir / 2 := by
    by_contra hne
    exact hno (hov j hj hne)
  rw [← hjd] at f1 ⊢
  rw [overlap_iff] at hno
  have := a2 j hj; have := a4 j hj; have := a5 j hj
  have := b2 j hj; have := b4 j hj; have := b5 j hj
  split at f1 <;> rename_i hdir
  · rw [if_pos hdir]; omega
  · rw [if_neg hdir]; omega

/-- A cell of block `B` touches a cell of block `C` and a cell of block `E`: then `C` and `E` touch, in a graded grid. -/
theorem reach {C B E : Box} {o : V3 Int} (hC : Cube2 C) (hB : Cube2 B) (hE : Cube2 E) (aC : ∀ j < 3, bwidth C ∣ V3.at C.lo j - V3.at o j)
    (aB : ∀ j < 3, bwidth B ∣ V3.at B.lo j - V3.at o j) (aE : ∀ j < 3, bwidth E ∣ V3.at E.lo j - V3.at o j) (hCB : Apart C B) (hBE : Apart B E)
    (gC : bwidth B = bwidth C ∨ bwidth B = 2 * bwidth C ∨ 2 * bwidth B = bwidth C) (gE : bwidth B = bwidth E ∨ bwidth B = 2 * bwidth E ∨ 2 * bwidth B = bwidth E)
    {dc de ic ib ie : Nat} (h1 : dc < 6) (h2 : de < 6) (i1 : ic < 8) (i2 : ib < 8) (i3 : ie < 8) (hc : Faces dc (cellOf C ic) (cellOf B ib))
    (he : Faces de (cellOf B ib) (cellOf E ie)) : Meets E C := by
  have hcb := block_faces hC hB hCB h1 i1 i2 hc
  have hbe := block_faces hB hE hBE h2 i2 i3 he
  obtain ⟨kc, c0, c1, c2, c3⟩ := cube_axis hC
  obtain ⟨kb, b0, b1, b2, b3⟩ := cube_axis hB
  obtain ⟨ke, e0, e1, e2, e3⟩ := cube_axis hE
  obtain ⟨wc, c4, c5⟩ := c3 ic i1
  obtain ⟨wb, b4, b5⟩ := b3 ib i2
  obtain ⟨we, e4, e5⟩ := e3 ie i3
  rw [faces_axis h1] at hc hcb
  rw [faces_axis h2] at he hbe
  obtain ⟨hc1, hc2⟩ := hc
  obtain ⟨he1, he2⟩ := he
  have had : ∀ j < 3, kb ∣ (V3.at B.lo j + wb j) - V3.at o j := by
    intro j hj
    have p1 : kb ∣ V3.at B.lo j - V3.at o j := (Dvd.intro_left 2 b1.symm).trans (aB j hj)
    have p2 : kb ∣ wb j := by rcases b4 j hj with h | h <;> rw [h]; exact dvd_zero _
    have := dvd_add p1 p2
    rwa [show V3.at B.lo j - V3.at o j + wb j = (V3.at B.lo j + wb j) - V3.at o j by ring] at this
  have covC : ∀ j < 3, V3.at C.lo j < V3.at B.lo j + wb j + kb → V3.at B.lo j + wb j < V3.at C.hi j → V3.at C.lo j ≤ V3.at B.lo j + wb j ∧ V3.at B.lo j + wb j + kb ≤ V3.at C.hi j := by
    intro j hj p1 p2
    have := cover (s := bwidth C) b0 (by omega) (aC j hj) (had j hj) p1 (by have := c2 j hj; omega)
    have := c2 j hj
    omega
  have covE : ∀ j < 3, V3.at E.lo j < V3.at B.lo j + wb j + kb → V3.at B.lo j + wb j < V3.at E.hi j → V3.at E.lo j ≤ V3.at B.lo j + wb j ∧ V3.at B.lo j + wb j + kb ≤ V3.at E.hi j := by
    intro j hj p1 p2
    have := cover (s := bwidth E) b0 (by omega) (aE j hj) (had j hj) p1 (by have := e2 j hj; omega)
    have := e2 j hj
    omega
  intro j hj
  have q1 := c2 j hj; have q2 := c4 j hj; have q3 := c5 j hj
  have q4 := b2 j hj; have q5 := b4 j hj; have q6 := b5 j hj
  have q7 := e2 j hj; have q8 := e4 j hj; have q9 := e5 j hj
  by_cases hX : j = dc / 2
  · rw [← hX] at hc1 hcb
    have hcb1 := hcb.1
    by_cases hY : j = de / 2
    · rw [← hY] at he1 hbe
      have hbe1 := hbe.1
      split at hc1 <;> split at he1 <;> rename_i m1 m2
      · rw [if_pos m1] at hcb1; rw [if_pos m2] at hbe1; omega
      · rw [if_pos m1] at hcb1; rw [if_neg m2] at hbe1; omega
      · rw [if_neg m1] at hcb1; rw [if_pos m2] at hbe1; omega
      · rw [if_neg m1] at hcb1; rw [if_neg m2] at hbe1; omega
    · have ov := he2 j hj hY
      rw [overlap_iff] at ov
      have := covE j hj (by omega) (by omega)
      split at hc1 <;> rename_i m1
      · rw [if_pos m1] at hcb1; omega
      · rw [if_neg m1] at hcb1; omega
  · have ov := hc2 j hj hX
    rw [overlap_iff] at ov
    have k1 := covC j hj (by omega) (by omega)
    by_cases hY : j = de / 2
    · rw [← hY] at he1 hbe
      split at he1 <;> omega
    · have ov2 := he2 j hj hY
      rw [overlap_iff] at ov2
      omega

end Shamrock.Fv
