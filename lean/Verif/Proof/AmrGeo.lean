import Verif.Proof.AmrUpd
/-! Points of blocks, the tiling of an octree, and the meaning of the geometry test. -/
namespace Shamrock.Amr

/-- The integer point `p` lies in the (half-open) block. -/
def Inside (b : Box) (p : V3 Int) : Prop :=
  b.lo.x ≤ p.x ∧ p.x < b.hi.x ∧ b.lo.y ≤ p.y ∧ p.y < b.hi.y ∧ b.lo.z ≤ p.z ∧ p.z < b.hi.z

theorem koff_find {β : Type} (f : Nat → List β) : ∀ n i, i < koff f n → ∃ r < n, ∃ j < (f r).length, i = koff f r + j := by
  intro n
  induction n with
  | zero => intro i h; rw [koff_zero] at h; omega
  | succ n ih =>
    intro i h
    rcases Nat.lt_or_ge i (koff f n) with h' | h'
    · obtain ⟨r, a, b⟩ := ih i h'; exact ⟨r, by omega, b⟩
    · rw [koff_succ] at h; exact ⟨n, by omega, i - koff f n, by omega, by omega⟩

/-- The eight children cover the cube. -/
theorem kid_cover (lo : V3 Int) (S : Int) (p : V3 Int) (h : Inside (cube lo (S * 2)) p) : ∃ r < 8, Inside (cube (kidLo lo S r) S) p := by
  unfold Inside cube at h
  obtain ⟨h1, h2, h3, h4, h5, h6⟩ := h
  dsimp only at *
  have key : ∀ (a : Int) (l : Int), l ≤ a → a < l + S * 2 → ∃ c : Nat, c < 2 ∧ l + S * (c : Int) ≤ a ∧ a < l + S * (c : Int) + S := by
    intro a l ha hb
    by_cases q : a < l + S
    · exact ⟨0, by omega, by simp; omega, by simp; omega⟩
    · exact ⟨1, by omega, by simp; omega, by simp; omega⟩
  obtain ⟨a, a0, a1, a2⟩ := key _ _ h1 h2
  obtain ⟨b, b0, b1, b2⟩ := key _ _ h3 h4
  obtain ⟨c, c0, c1, c2⟩ := key _ _ h5 h6
  refine ⟨4 * a + 2 * b + c, by omega, ?_⟩
  unfold Inside cube kidLo coordZ
  dsimp only
  rw [show (4 * a + 2 * b + c) / 2 / 2 = a by omega, show (4 * a + 2 * b + c) / 2 % 2 = b by omega, show (4 * a + 2 * b + c) % 2 = c by omega]
  exact ⟨a1, a2, b1, b2, c1, c2⟩

theorem kid_inside (lo : V3 Int) (S : Int) (hS : 0 < S) (r : Nat) (hr : r < 8) (p : V3 Int) (h : Inside (cube (kidLo lo S r) S) p) :
    Inside (cube lo (S * 2)) p := by
  unfold Inside cube kidLo at *
  interval_cases r <;> simp only [coordZ] at h <;> norm_num at h <;> dsimp only <;> omega

theorem kid_unique (lo : V3 Int) (S : Int) (hS : 0 < S) (r r' : Nat) (hr : r < 8) (hr' : r' < 8) (p : V3 Int) (h : Inside (cube (kidLo lo S r) S) p)
    (h' : Inside (cube (kidLo lo S r') S) p) : r = r' := by
  unfold Inside cube kidLo at *
  interval_cases r <;> interval_cases r' <;> first | rfl | (simp only [coordZ] at h h'; norm_num at h h'; omega)

theorem boxes_in {e : Nat} (t : Oct e) : ∀ (lo : V3 Int) (b : Box) (p : V3 Int), b ∈ t.boxes lo → Inside b p → Inside (cube lo (2 ^ e)) p := by
  induction t with
  | leaf e => intro lo b p hb h; rw [Oct.boxes, List.mem_singleton] at hb; subst hb; exact h
  | @node e c ih =>
    intro lo b p hb h
    rw [Oct.boxes, List.mem_flatMap] at hb
    obtain ⟨r, hr, hb⟩ := hb
    rw [pow_succ]
    exact kid_inside lo _ (pow_pos' e) r (List.mem_range.1 hr) p (ih r _ b p hb h)

theorem boxes_cover {e : Nat} (t : Oct e) : ∀ (lo : V3 Int) (p : V3 Int), Inside (cube lo (2 ^ e)) p → ∃ (i : Nat) (b : Box),
    (t.boxes lo)[i]? = some b ∧ Inside b p := by
  induction t with
  | leaf e => intro lo p h; exact ⟨0, _, by rw [Oct.boxes]; rfl, h⟩
  | @node e c ih =>
    intro lo p h
    rw [pow_succ] at h
    obtain ⟨r, hr, h⟩ := kid_cover lo _ p h
    obtain ⟨i, b, h1, h2⟩ := ih r _ p h
    have hk := koff_get (fun r => (c r).boxes (kidLo lo (2 ^ e) r)) 8 r i hr (List.getElem?_eq_some_iff.1 h1).1
    exact ⟨_, b, by rw [Oct.boxes]; exact hk.trans h1, h2⟩

theorem boxes_disjoint {e : Nat} (t : Oct e) : ∀ (lo : V3 Int) (p : V3 Int) (i j : Nat) (b b' : Box), (t.boxes lo)[i]? = some b →
    (t.boxes lo)[j]? = some b' → Inside b p → Inside b' p → i = j := by
  induction t with
  | leaf e =>
    intro lo p i j b b' hi hj _ _
    have h1 := (List.getElem?_eq_some_iff.1 hi).1
    have h2 := (List.getElem?_eq_some_iff.1 hj).1
    rw [Oct.boxes] at h1 h2
    simp at h1 h2; omega
  | @node e c ih =>
    intro lo p i j b b' hi hj h h'
    have hbx : (Oct.node c).boxes lo = (List.range 8).flatMap (fun r => (c r).boxes (kidLo lo (2 ^ e) r)) := by rw [Oct.boxes]
    rw [hbx] at hi hj
    obtain ⟨r, hr, i', hi', rfl⟩ := koff_find (fun r => (c r).boxes (kidLo lo (2 ^ e) r)) 8 i (List.getElem?_eq_some_iff.1 hi).1
    obtain ⟨r', hr', j', hj', rfl⟩ := koff_find (fun r => (c r).boxes (kidLo lo (2 ^ e) r)) 8 j (List.getElem?_eq_some_iff.1 hj).1
    rw [koff_get _ 8 r i' hr hi'] at hi
    rw [koff_get _ 8 r' j' hr' hj'] at hj
    have := kid_unique lo _ (pow_pos' e) r r' hr hr' p (boxes_in _ _ _ _ (List.mem_of_getElem? hi) h) (boxes_in _ _ _ _ (List.mem_of_getElem? hj) h')
    subst this
    rw [ih r _ p i' j' b b' hi hj h h']

/-! ### Splitting and merging -/

/-- Splitting a cube of even side gives its eight children. -/
theorem splitZ_cube (q : V3 Int) (s : Int) (hs : 0 < s) (k : Nat) (hk : k < 8) : splitZ (cube q (2 * s)) k = cube (kidLo q s k) s := by
  have ht : ∀ a : Int, (a + 2 * s - a).tdiv 2 + a = a + s := by
    intro a
    rw [show a + 2 * s - a = s * 2 by ring, Int.mul_tdiv_cancel _ (by omega)]; ring
  have hp : splitPt (cube q (2 * s)) = ⟨q.x + s, q.y + s, q.z + s⟩ := by
    unfold splitPt cube
    dsimp only
    rw [ht, ht, ht]
  unfold splitZ childBox
  interval_cases k <;> simp only [coordZ, szs, hp] <;> norm_num [szs, hp, cube, kidLo, coordZ] <;> omega

/-- The order in which `get_split` numbers the children. -/
def revBits (i : Nat) : Nat := 4 * (i % 2) + 2 * (i / 2 % 2) + i / 2 / 2

theorem splitX_eq (b : Box) (i : Nat) (hi : i < 8) : splitX b i = splitZ b (revBits i) := by
  unfold splitX splitZ coordX coordZ revBits
  interval_cases i <;> rfl

theorem mergeAll_split (q : V3 Int) (s : Int) (hs : 0 < s) (o : Nat → Box) (h : ∀ k < 8, o k = cube (kidLo q s k) s) : mergeAll o = cube q (2 * s) := by
  unfold mergeAll
  rw [h 0 (by omega), h 1 (by omega), h 2 (by omega), h 3 (by omega), h 4 (by omega), h 5 (by omega), h 6 (by omega), h 7 (by omega)]
  unfold merge2 cube kidLo coordZ
  simp only [Box.mk.injEq]
  norm_num
  refine ⟨?_, by omega, by omega, by omega⟩
  rw [min_eq_left (by omega), min_eq_left (by omega), min_eq_left (by omega)]

/-- What the geometry test accepts: eight cubes that are the `z`-fastest split of a cube. -/
theorem geomOk_window (o : Nat → Box) (h : geomOk o = true) (hc : ∀ k < 8, ∃ s : Int, 0 < s ∧ o k = cube (o k).lo s) :
    ∃ q s, 0 < s ∧ ∀ k < 8, o k = cube (kidLo q s k) s := by
  unfold geomOk at h
  rw [List.all_eq_true] at h
  have h' : ∀ k < 8, o k = splitZ (mergeAll o) k := fun k hk => of_decide_eq_true (h k (List.mem_range.2 hk))
  generalize mergeAll o = P at h'
  have key : ∀ k < 8, ∃ s : Int, 0 < s ∧ splitZ P k = cube (splitZ P k).lo s := by
    intro k hk
    obtain ⟨s, h1, h2⟩ := hc k hk
    rw [h' k hk] at h2
    exact ⟨s, h1, h2⟩
  obtain ⟨s0, p0, e0⟩ := key 0 (by omega)
  obtain ⟨s1, p1, e1⟩ := key 1 (by omega)
  obtain ⟨s2, p2, e2⟩ := key 2 (by omega)
  obtain ⟨s4, p4, e4⟩ := key 4 (by omega)
  simp only [splitZ, coordZ, childBox, cube, szs, Box.mk.injEq, V3.mk.injEq, true_and] at e0 e1 e2 e4
  refine ⟨P.lo, s0, p0, fun k hk => ?_⟩
  rw [h' k hk]
  unfold splitZ childBox kidLo cube
  interval_cases k <;> simp only [coordZ, szs] <;> norm_num [szs] <;> omega

theorem geomOk_of_window (o : Nat → Box) (q : V3 Int) (s : Int) (hs : 0 < s) (h : ∀ k < 8, o k = cube (kidLo q s k) s) : geomOk o = true := by
  unfold geomOk
  rw [List.all_eq_true]
  intro k hk
  rw [List.mem_range] at hk
  rw [mergeAll_split q s hs o h, splitZ_cube q s hs k hk, h k hk]
  simp

end Shamrock.Amr
