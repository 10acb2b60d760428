import Verif.Model.FvSlope
import Verif.Proof.FvCons
/-! The slopes as means over the faces. -/
namespace Shamrock.Fv
open Amr

/-! ### Specification -/

/-- Size of a cell. -/
def width (dx : ℚ) (B : Box) : ℚ := (B.hi.x - B.lo.x : Int) * dx

/-- Distance used between the centres of a cell of size `a` and of a cell of size `b` that touches it. -/
def gap (a b : ℚ) : ℚ := if a < b then 3 / 2 * a else if b < a then 3 / 4 * a else a

/-- The cells that touch cell `c` in direction `dir`. -/
def touching (bs : List Box) (dir c : Nat) : Finset Nat := (Finset.range (bs.length * 8)).filter fun d => Faces dir (cellD bs c) (cellD bs d)

/-- Mean, over the cells that touch `c` in direction `dir`, of the difference quotient of `f` along the axis; zero without neighbour. -/
def meanSlope (dx : ℚ) (bs : List Box) (f : Nat → ℚ) (dir c : Nat) : ℚ :=
  (∑ d ∈ touching bs dir c, (if dir % 2 = 0 then f d - f c else f c - f d) / gap (width dx (cellD bs c)) (width dx (cellD bs d))) / (touching bs dir c).card

/-- The limited slopes of `f` in cell `c`. -/
def slopes (mode : SlopeMode) (dx : ℚ) (bs : List Box) (f : Nat → ℚ) (c : Nat) : V3 ℚ :=
  ⟨slopeFn mode (meanSlope dx bs f 1 c) (meanSlope dx bs f 0 c), slopeFn mode (meanSlope dx bs f 3 c) (meanSlope dx bs f 2 c),
    slopeFn mode (meanSlope dx bs f 5 c) (meanSlope dx bs f 4 c)⟩

/-- The fields of cell `c`: primitive variables and their slopes. -/
def cellSpec (A : Ar) (gamma dx : ℚ) (mode : SlopeMode) (bs : List Box) (cons : List CState) (c : Nat) : CellIn :=
  let p : Nat → PState := fun d => A.consToPrim gamma (cons.getD d state0)
  let gx := slopes mode dx bs (fun d => (p d).vel.x) c
  let gy := slopes mode dx bs (fun d => (p d).vel.y) c
  let gz := slopes mode dx bs (fun d => (p d).vel.z) c
  ⟨(p c).rho, (p c).press, (p c).vel, slopes mode dx bs (fun d => (p d).rho) c, slopes mode dx bs (fun d => (p d).press) c,
    ⟨gx.x, gy.x, gz.x⟩, ⟨gx.y, gy.y, gz.y⟩, ⟨gx.z, gy.z, gz.z⟩⟩

/-! ### Proofs -/

theorem forEachLinkCnt_ok {g : NGraph} {n : Nat} {R : Nat → List Nat} (h : GraphOf g n R) (i : Nat) (hi : i < n) :
    forEachLinkCnt g i = some (R i, (R i).length) := by
  obtain ⟨a, ha, ha'⟩ := h.offs i (by omega)
  obtain ⟨b, hb, hb'⟩ := h.offs (i + 1) (by omega)
  have hr := runs_get n R i hi
  have hs := seg_flatten _ i (R i) hr
  have h2 := runOff_le ((List.range n).map R) (i + 1)
  have h1 := runOff_end _ i _ hr
  unfold forEachLinkCnt
  have hsub : (b - a).toNat = b.toNat - a.toNat := BitVec.toNat_sub_of_le (by rw [BitVec.le_def]; omega)
  simp only [ha, hb, Option.bind_eq_bind, Option.bind_some, hsub, ha', hb', h.links]
  have hm : ∀ (l : List Nat) (a len : Nat), a + len ≤ l.length → (List.range' a len).mapM (fun s => l[s]?) = some ((l.drop a).take len) := by
    intro l a len
    induction len generalizing a with
    | zero => intro _; simp
    | succ len ih =>
      intro h
      have ha : a < l.length := by omega
      rw [List.range'_succ, List.mapM_cons, List.getElem?_eq_getElem ha, ih (a + 1) (by omega), List.drop_eq_getElem_cons ha, List.take_succ_cons]
      rfl
  rw [hm _ _ _ (by omega)]
  rw [seg] at hs
  rw [hs]
  simp only [Option.bind_some, Option.pure_def]
  congr 2
  omega

theorem blockSize_ok {dx : ℚ} {bs : List Box} (hc : ∀ b ∈ bs, Cube2 b) (c : Nat) (hcl : c < bs.length * 8) :
    (bs.map (blockCellSize dx))[c / 8]? = some (width dx (cellD bs c)) := by
  have ha : c / 8 < bs.length := by omega
  have hA : bs[c / 8]? = some bs[c / 8] := List.getElem?_eq_getElem ha
  generalize bs[c / 8] = A at hA
  obtain ⟨k, h0, h1, h2, h3⟩ := hc A (List.mem_of_getElem? hA)
  unfold cellD
  rw [List.getElem?_map, List.getD_eq_getElem?_getD, cells_get, hA, Option.map_some, Option.map_some, Option.getD_some, cellOf_cube h0 h1 h2 h3]
  congr 1
  unfold blockCellSize width
  rw [h1]
  push_cast
  ring

theorem width_pos {dx : ℚ} (hdx : 0 < dx) {bs : List Box} (hc : ∀ b ∈ bs, Cube2 b) (c : Nat) (hcl : c < bs.length * 8) : 0 < width dx (cellD bs c) := by
  have h := cells_solid (fun b hb => cube_wide (hc b hb)) _ (List.mem_of_getElem? (cellD_get hcl))
  unfold width
  have : (0 : Int) < (cellD bs c).hi.x - (cellD bs c).lo.x := by have := h.1; omega
  exact mul_pos (by exact_mod_cast this) hdx

theorem gap_ok (a b : ℚ) : sizeFac b a * a = gap a b := by
  unfold sizeFac gap
  dsimp only
  rcases lt_trichotomy a b with h | h | h
  · rw [if_neg (not_lt.2 h.le), if_pos h, if_pos h]
  · subst h; simp
  · rw [if_pos h, if_neg (not_lt.2 h.le), if_pos h]

theorem gradDir_ok {dx : ℚ} {bs : List Box} (hc : ∀ b ∈ bs, Cube2 b) {g : NGraph} {dir : Nat} {C : Nat → List Nat} (hg : GraphOf g (bs.length * 8) C)
    (hC : ∀ c < bs.length * 8, IsRow dir (cells bs) c (C c)) (field : List ℚ) (hf : field.length = bs.length * 8) (c : Nat) (hcl : c < bs.length * 8) :
    gradDir (bs.map (blockCellSize dx)) g field c dir = some (meanSlope dx bs (fun d => field.getD d 0) dir c) := by
  have hlt : ∀ d ∈ C c, d < bs.length * 8 := by
    intro d hm
    obtain ⟨_, B, _, e, _⟩ := ((hC c hcl).2 d).1 hm
    rw [← cells_length]
    exact (List.getElem?_eq_some_iff.1 e).1
  unfold gradDir
  rw [blockSize_ok hc c hcl, forEachLinkCnt_ok hg c hcl]
  simp only [Option.bind_eq_bind, Option.bind_some]
  have hfold : ∀ (stp : ℚ → Nat → Option ℚ) (T : Nat → ℚ), (∀ acc, ∀ d < bs.length * 8, stp acc d = some (acc + T d)) → ∀ (l : List Nat) (acc : ℚ),
      (∀ d ∈ l, d < bs.length * 8) → l.foldlM stp acc = some (acc + (l.map T).sum) := by
    intro stp T hs l
    induction l with
    | nil => intro acc _; simp
    | cons d l ih =>
      intro acc hl
      rw [List.foldlM_cons, hs acc d (hl d (by simp)), Option.bind_eq_bind, Option.bind_some, ih _ (fun d' hd' => hl d' (by simp [hd'])), List.map_cons, List.sum_cons,
        add_assoc]
  have h0 := fun stp hs => hfold stp (fun d =>
        (if dir % 2 = 0 then field.getD d 0 - field.getD c 0 else field.getD c 0 - field.getD d 0) / gap (width dx (cellD bs c)) (width dx (cellD bs d))) hs (C c) 0 hlt
  rw [h0 _ (by
    intro acc d hd
    rw [blockSize_ok hc d hd, List.getElem?_eq_getElem (by omega), List.getElem?_eq_getElem (by omega)]
    simp only [Option.bind_some, Option.pure_def]
    congr 1
    rw [gap_ok]
    congr 1
    rw [List.getD_eq_getElem?_getD, List.getD_eq_getElem?_getD, List.getElem?_eq_getElem (by omega), List.getElem?_eq_getElem (by omega)]
    simp only [Option.getD_some]
    have : dir % 2 = 0 ∨ dir % 2 = 1 := by omega
    rcases this with h | h <;> rw [h] <;> simp <;> ring)]
  simp only [Option.bind_some, zero_add, Option.pure_def]
  congr 1
  have hA := cellD_get (bs := bs) hcl
  have hcard : ((C c).length : ℚ) = (touching bs dir c).card := by
    have := row_sum hA (hC c hcl) (fun _ => 1)
    rw [List.map_const', List.sum_replicate, nsmul_eq_mul, mul_one] at this
    rw [this, ← Finset.sum_filter, Finset.sum_const, nsmul_eq_mul, mul_one]
    rfl
  rw [row_sum hA (hC c hcl), ← Finset.sum_filter]
  unfold meanSlope
  rw [← hcard]
  split
  · rfl
  · rename_i h
    have : (C c).length = 0 := by omega
    rw [this]
    simp

theorem fvCells_ok (A : Ar) (gamma dx : ℚ) (mode : SlopeMode) {bs : List Box} (hc : ∀ b ∈ bs, Cube2 b) (g : Nat → NGraph) (C : Nat → Nat → List Nat)
    (hg : ∀ dir < 6, GraphOf (g dir) (bs.length * 8) (C dir)) (hC : ∀ dir < 6, ∀ c < bs.length * 8, IsRow dir (cells bs) c (C dir c)) (cons : List CState)
    (hl : cons.length = bs.length * 8) :
    fvCells A gamma dx mode bs g cons = some ((List.range (bs.length * 8)).map (cellSpec A gamma dx mode bs cons)) := by
  have hgrad : ∀ (F : PState → ℚ) c, c < bs.length * 8 → grad3 mode (bs.map (blockCellSize dx)) g ((cons.map (A.consToPrim gamma)).map F) c =
      some (slopes mode dx bs (fun d => F (A.consToPrim gamma (cons.getD d state0))) c) := by
    intro F c hcl
    have key : ∀ dir < 6, gradDir (bs.map (blockCellSize dx)) (g dir) ((cons.map (A.consToPrim gamma)).map F) c dir =
        some (meanSlope dx bs (fun d => F (A.consToPrim gamma (cons.getD d state0))) dir c) := by
      intro dir hd
      rw [gradDir_ok hc (hg dir hd) (hC dir hd) _ (by simp [hl]) c hcl]
      congr 1
      have e : ∀ d < bs.length * 8, ((cons.map (A.consToPrim gamma)).map F).getD d 0 = F (A.consToPrim gamma (cons.getD d state0)) := by
        intro d hd
        rw [List.getD_eq_getElem?_getD, List.getD_eq_getElem?_getD, List.getElem?_map, List.getElem?_map, List.getElem?_eq_getElem (by omega)]
        rfl
      unfold meanSlope
      congr 1
      apply Finset.sum_congr rfl
      intro d hd
      dsimp only
      rw [e d (Finset.mem_range.1 (Finset.mem_filter.1 hd).1), e c hcl]
    unfold grad3
    rw [key 0 (by omega), key 1 (by omega), key 2 (by omega), key 3 (by omega), key 4 (by omega), key 5 (by omega)]
    rfl
  unfold fvCells
  dsimp only
  rw [hl]
  apply mapM_range_some
  intro c hcl
  rw [hgrad PState.rho c hcl, hgrad PState.press c hcl, hgrad (fun p => p.vel.x) c hcl, hgrad (fun p => p.vel.y) c hcl, hgrad (fun p => p.vel.z) c hcl,
    List.getElem?_map, List.getElem?_eq_getElem (by omega)]
  simp only [Option.map_some, Option.bind_eq_bind, Option.bind_some, Option.pure_def]
  unfold cellSpec
  dsimp only
  rw [List.getD_eq_getElem?_getD, List.getElem?_eq_getElem (by omega)]
  rfl

end Shamrock.Fv
