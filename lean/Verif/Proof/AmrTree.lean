import Verif.Model.Amr
import Mathlib.Tactic.IntervalCases
import Mathlib.Algebra.Order.Ring.Int
import Mathlib.Tactic.Ring
/-! Octrees of blocks: 8 consecutive blocks of an octree in depth-first order that pass the geometry test are the children of one node. -/
namespace Shamrock.Amr

/-- An octree whose root has side `2^e`. Children `0 … 7` count (in `z`-fastest order). -/
inductive Oct : Nat → Type
  | leaf (e : Nat) : Oct e
  | node {e : Nat} (c : Nat → Oct e) : Oct (e + 1)

/-- The cube with lowest corner `lo` and side `s`. -/
def cube (lo : V3 Int) (s : Int) : Box := ⟨lo, ⟨lo.x + s, lo.y + s, lo.z + s⟩⟩

/-- Lowest corner of child `r` (`z` fastest) of a node at `lo` whose children have side `s`. -/
def kidLo (lo : V3 Int) (s : Int) (r : Nat) : V3 Int :=
  ⟨lo.x + s * ((coordZ r).1 : Int), lo.y + s * ((coordZ r).2.1 : Int), lo.z + s * ((coordZ r).2.2 : Int)⟩

/-- The boxes of the leaves, depth first. -/
def Oct.boxes : {e : Nat} → Oct e → V3 Int → List Box
  | e, .leaf _, lo => [cube lo (2 ^ e)]
  | _, .node (e := e) c, lo => (List.range 8).flatMap fun r => (c r).boxes (kidLo lo (2 ^ e) r)

/-- Position of the first leaf of child `r`. -/
def koff {β : Type} (f : Nat → List β) (r : Nat) : Nat := ((List.range r).flatMap f).length

theorem koff_zero {β : Type} (f : Nat → List β) : koff f 0 = 0 := rfl

theorem koff_succ {β : Type} (f : Nat → List β) (r : Nat) : koff f (r + 1) = koff f r + (f r).length := by
  unfold koff
  rw [List.range_succ, List.flatMap_append, List.length_append]
  simp

theorem koff_get {β : Type} (f : Nat → List β) (n r j : Nat) (hr : r < n) (hj : j < (f r).length) :
    ((List.range n).flatMap f)[koff f r + j]? = (f r)[j]? := by
  induction n with
  | zero => omega
  | succ n ih =>
    have hs : (List.range (n + 1)).flatMap f = (List.range n).flatMap f ++ f n := by
      rw [List.range_succ, List.flatMap_append]; simp
    rw [hs]
    by_cases h : r = n
    · subst h
      rw [List.getElem?_append_right (by unfold koff; omega)]
      congr 1
      unfold koff; omega
    · have h1 : ∀ m, r + 1 ≤ m → koff f (r + 1) ≤ koff f m := by
        intro m
        induction m with
        | zero => intro h; omega
        | succ m ihm =>
          intro hm
          rcases Nat.lt_or_ge r m with q | q
          · have := ihm (by omega); rw [koff_succ f m]; omega
          · have : r = m := by omega
            subst this; exact le_refl _
      have h2 := h1 n (by omega)
      rw [koff_succ] at h2
      rw [List.getElem?_append_left (by show koff f r + j < koff f n; omega)]
      exact ih (by omega)

theorem pow_pos' (e : Nat) : (0 : Int) < 2 ^ e := by positivity

/-- Sides of the leaves. -/
theorem boxes_side {e : Nat} (t : Oct e) : ∀ (lo : V3 Int) (b : Box), b ∈ t.boxes lo → ∃ s : Int, 0 < s ∧ s ≤ 2 ^ e ∧ b = cube b.lo s := by
  induction t with
  | leaf e =>
    intro lo b hb
    rw [Oct.boxes, List.mem_singleton] at hb
    subst hb
    exact ⟨2 ^ e, pow_pos' e, le_refl _, rfl⟩
  | @node e c ih =>
    intro lo b hb
    rw [Oct.boxes, List.mem_flatMap] at hb
    obtain ⟨r, -, hb⟩ := hb
    obtain ⟨s, h1, h2, h3⟩ := ih r _ b hb
    refine ⟨s, h1, le_trans h2 ?_, h3⟩
    rw [pow_succ]; have := pow_pos' e; omega

theorem cube_inj {a b : V3 Int} {s t : Int} (h : cube a s = cube b t) : a = b ∧ s = t := by
  unfold cube at h
  injection h with h1 h2
  subst h1
  injection h2 with h2 h3 h4
  exact ⟨rfl, by omega⟩

/-- A leaf of the full side: the tree is that leaf. -/
theorem boxes_full {e : Nat} (t : Oct e) (lo q : V3 Int) (h : cube q (2 ^ e) ∈ t.boxes lo) : t = .leaf e := by
  cases t with
  | leaf e => rfl
  | @node e c =>
    rw [Oct.boxes, List.mem_flatMap] at h
    obtain ⟨r, -, hb⟩ := h
    obtain ⟨s, h1, h2, h3⟩ := boxes_side _ _ _ hb
    have := (cube_inj h3).2
    rw [pow_succ] at this
    have := pow_pos' e
    omega

theorem boxes_pos {e : Nat} (t : Oct e) : ∀ (lo : V3 Int), 0 < (t.boxes lo).length := by
  induction t with
  | leaf e => intro lo; rw [Oct.boxes]; simp
  | @node e c ih =>
    intro lo
    rw [Oct.boxes]
    have h1 : koff (fun r => (c r).boxes (kidLo lo (2 ^ e) r)) 1 ≤ koff (fun r => (c r).boxes (kidLo lo (2 ^ e) r)) 8 := by
      simp only [koff_succ]; omega
    have h2 := ih 0 (kidLo lo (2 ^ e) 0)
    rw [koff_succ, koff_zero] at h1
    show 0 < koff _ 8
    omega

theorem kidLo_zero (lo : V3 Int) (s : Int) : kidLo lo s 0 = lo := by
  unfold kidLo coordZ; simp

/-- The first leaf sits at the lowest corner. -/
theorem boxes_first {e : Nat} (t : Oct e) : ∀ (lo : V3 Int), ∃ b, (t.boxes lo)[0]? = some b ∧ b.lo = lo := by
  induction t with
  | leaf e => intro lo; exact ⟨_, rfl, rfl⟩
  | @node e c ih =>
    intro lo
    obtain ⟨b, h1, h2⟩ := ih 0 (kidLo lo (2 ^ e) 0)
    refine ⟨b, ?_, by rw [h2, kidLo_zero]⟩
    have h3 := koff_get (fun r => (c r).boxes (kidLo lo (2 ^ e) r)) 8 0 0 (by omega) (boxes_pos _ _)
    rw [koff_zero] at h3
    rw [Oct.boxes, h3]
    exact h1

/-- The last leaf sits at the highest corner. -/
theorem boxes_last {e : Nat} (t : Oct e) : ∀ (lo : V3 Int), ∃ b, (t.boxes lo)[(t.boxes lo).length - 1]? = some b ∧
    b.hi = ⟨lo.x + 2 ^ e, lo.y + 2 ^ e, lo.z + 2 ^ e⟩ := by
  induction t with
  | leaf e => intro lo; exact ⟨_, rfl, rfl⟩
  | @node e c ih =>
    intro lo
    obtain ⟨b, h1, h2⟩ := ih 7 (kidLo lo (2 ^ e) 7)
    have hp := boxes_pos (c 7) (kidLo lo (2 ^ e) 7)
    refine ⟨b, ?_, ?_⟩
    · have h3 := koff_get (fun r => (c r).boxes (kidLo lo (2 ^ e) r)) 8 7 (((c 7).boxes (kidLo lo (2 ^ e) 7)).length - 1) (by omega)
        (by omega)
      have h4 : ((Oct.node c).boxes lo).length - 1 = koff (fun r => (c r).boxes (kidLo lo (2 ^ e) r)) 7 +
          (((c 7).boxes (kidLo lo (2 ^ e) 7)).length - 1) := by
        have h5 : ((Oct.node c).boxes lo).length = koff (fun r => (c r).boxes (kidLo lo (2 ^ e) r)) 8 := by rw [Oct.boxes]; rfl
        rw [h5, koff_succ]
        omega
      rw [h4, Oct.boxes, h3]
      exact h1
    · rw [h2]
      unfold kidLo coordZ
      simp only [pow_succ]
      norm_num
      refine ⟨?_, ?_, ?_⟩ <;> ring

/-- A window of 8 consecutive leaves that forms a cube in `z`-fastest order. -/
def Window (L : List Box) (i : Nat) (q : V3 Int) (s : Int) : Prop := ∀ k < 8, L[i + k]? = some (cube (kidLo q s k) s)

/-- The leaves `i … i + 7` of the tree are the children of one node. -/
def Oct.IsFam : {e : Nat} → Oct e → V3 Int → Nat → V3 Int → Int → Prop
  | _, .leaf _, _, _, _, _ => False
  | _, .node (e := e) c, lo, i, q, s => (i = 0 ∧ q = lo ∧ s = 2 ^ e ∧ ∀ r < 8, c r = .leaf e) ∨
    ∃ r < 8, ∃ j, i = koff (fun r => (c r).boxes (kidLo lo (2 ^ e) r)) r + j ∧ (c r).IsFam (kidLo lo (2 ^ e) r) j q s

/-- A window across the border of two children: its blocks have the side of the children. -/
theorem straddle {lo q : V3 Int} {s S : Int} (r k : Nat) (hr : r < 7) (hk : k < 7) (hs : 0 < s) (hS : 0 < S) (a : V3 Int)
    (ha : cube (kidLo q s k) s = ⟨a, ⟨(kidLo lo S r).x + S, (kidLo lo S r).y + S, (kidLo lo S r).z + S⟩⟩)
    (hb : (kidLo q s (k + 1)) = kidLo lo S (r + 1)) : s = S := by
  unfold cube at ha
  injection ha with _ ha
  injection ha with a1 a2 a3
  unfold kidLo at *
  injection hb with b1 b2 b3
  interval_cases r <;> interval_cases k <;> simp only [coordZ] at * <;> norm_num at * <;> omega

/-- 8 consecutive leaves forming a cube in `z`-fastest order are the children of one node. -/
theorem window_fam {e : Nat} (t : Oct e) : ∀ (lo : V3 Int) (i : Nat) (q : V3 Int) (s : Int), 0 < s → Window (t.boxes lo) i q s →
    t.IsFam lo i q s := by
  induction t with
  | leaf e =>
    intro lo i q s _ hw
    have := hw 7 (by omega)
    rw [Oct.boxes, List.getElem?_eq_none (by simp)] at this
    cases this
  | @node e c ih =>
    intro lo i q s hs hw
    have hlen : i + 8 ≤ ((Oct.node c).boxes lo).length := by
      have := (List.getElem?_eq_some_iff.1 (hw 7 (by omega))).1; omega
    have hbx : (Oct.node c).boxes lo = (List.range 8).flatMap (fun r => (c r).boxes (kidLo lo (2 ^ e) r)) := by rw [Oct.boxes]
    rw [hbx] at hlen hw
    generalize hf : (fun r => (c r).boxes (kidLo lo (2 ^ e) r)) = f at *
    have hfr : ∀ r, f r = (c r).boxes (kidLo lo (2 ^ e) r) := fun r => by rw [← hf]
    have hlen' : i + 8 ≤ koff f 8 := hlen
    have hpos : ∀ r, 0 < (f r).length := fun r => by rw [hfr]; exact boxes_pos _ _
    have hmono : ∀ a b, a ≤ b → koff f a ≤ koff f b := by
      intro a b h
      induction b with
      | zero => have : a = 0 := by omega
                subst this; exact le_refl _
      | succ b ihb =>
        rcases Nat.lt_or_ge b a with h' | h'
        · have : a = b + 1 := by omega
          subst this; exact le_refl _
        · have := ihb h'; rw [koff_succ]; omega
    have hS := pow_pos' e
    by_cases hst : ∃ r < 7, i < koff f (r + 1) ∧ koff f (r + 1) < i + 8
    · -- the window crosses a border: all is at the level of the children
      obtain ⟨r, hr, h1, h2⟩ := hst
      have hsS : s = 2 ^ e := by
        have hk := hw (koff f (r + 1) - 1 - i) (by omega)
        have hk' := hw (koff f (r + 1) - i) (by omega)
        rw [show i + (koff f (r + 1) - 1 - i) = koff f r + ((f r).length - 1) by rw [koff_succ] at h1 ⊢; have := hpos r; omega,
          koff_get f 8 r _ (by omega) (by have := hpos r; omega), hfr] at hk
        rw [show i + (koff f (r + 1) - i) = koff f (r + 1) + 0 by omega, koff_get f 8 (r + 1) _ (by omega) (hpos _), hfr] at hk'
        obtain ⟨b, e1, e2⟩ := boxes_last (c r) (kidLo lo (2 ^ e) r)
        obtain ⟨b', e1', e2'⟩ := boxes_first (c (r + 1)) (kidLo lo (2 ^ e) (r + 1))
        rw [hk] at e1
        rw [hk'] at e1'
        have e1 := Option.some.inj e1
        have e1' := Option.some.inj e1'
        refine straddle (lo := lo) (q := q) r (koff f (r + 1) - 1 - i) hr (by omega) hs hS b.lo ?_ ?_
        · rw [e1, ← e2]
        · rw [← e2', ← e1']
          show _ = kidLo q s (koff f (r + 1) - i)
          congr 1
          omega
      subst hsS
      -- a child met by the window is a leaf
      have hmeet : ∀ r < 8, koff f r < i + 8 → i < koff f (r + 1) → c r = .leaf e := by
        intro r hr a b
        rw [koff_succ] at b
        obtain ⟨m, m1, m2, m3, m4⟩ : ∃ m, koff f r ≤ m ∧ i ≤ m ∧ m < i + 8 ∧ m < koff f r + (f r).length := by
          rcases Nat.le_total (koff f r) i with h | h
          · exact ⟨i, h, le_refl _, by omega, b⟩
          · exact ⟨koff f r, le_refl _, h, a, by have := hpos r; omega⟩
        have hk := hw (m - i) (by omega)
        rw [show i + (m - i) = koff f r + (m - koff f r) by omega,
          koff_get f 8 r _ hr (by omega), hfr] at hk
        exact boxes_full _ _ _ (List.mem_of_getElem? hk)
      have hone : ∀ r < 8, koff f r < i + 8 → i < koff f (r + 1) → koff f (r + 1) = koff f r + 1 := by
        intro r hr a b
        rw [koff_succ, hfr, hmeet r hr a b, Oct.boxes]; rfl
      have hfind : ∀ n, i < koff f n → ∃ r0 < n, koff f r0 ≤ i ∧ i < koff f (r0 + 1) := by
        intro n
        induction n with
        | zero => intro h; rw [koff_zero] at h; omega
        | succ n ihn =>
          intro h
          rcases Nat.lt_or_ge i (koff f n) with h' | h'
          · obtain ⟨r0, a, b⟩ := ihn h'; exact ⟨r0, by omega, b⟩
          · exact ⟨n, by omega, h', h⟩
      obtain ⟨r0, hr0, a0, b0⟩ := hfind 8 (by omega)
      have hup : ∀ k, r0 + k < 8 → k < 8 → koff f (r0 + k + 1) = i + k + 1 := by
        intro k
        induction k with
        | zero =>
          intro _ _
          have := hone r0 hr0 (by omega) b0
          show koff f (r0 + 1) = _
          omega
        | succ k ihk =>
          intro h h'
          have h1 := ihk (by omega) (by omega)
          have := hone (r0 + k + 1) (by omega) (by omega) (by rw [koff_succ, h1]; have := hpos (r0 + k + 1); omega)
          show koff f (r0 + k + 1 + 1) = _
          omega
      have h8 := hup (7 - r0) (by omega) (by omega)
      rw [show r0 + (7 - r0) + 1 = 8 by omega] at h8
      have hr00 : r0 = 0 := by omega
      subst hr00
      have h1' := hup 0 (by omega) (by omega)
      have hone0 := hone 0 (by omega) (by rw [koff_zero]; omega) b0
      rw [koff_zero] at hone0
      rw [Nat.add_zero] at h1'
      have hi0 : i = 0 := by omega
      subst hi0
      have hall : ∀ r < 8, c r = .leaf e := by
        intro r hr
        have hr1 : koff f (r + 1) = r + 1 := by have := hup r (by omega) hr; rw [Nat.zero_add] at this; omega
        have hr2 := koff_succ f r
        have := hpos r
        exact hmeet r hr (by omega) (by omega)
      refine Or.inl ⟨rfl, ?_, rfl, hall⟩
      have hk := hw 0 (by omega)
      rw [show 0 + 0 = koff f 0 + 0 by rfl, koff_get f 8 0 0 (by omega) (hpos 0), hfr, hall 0 (by omega), Oct.boxes] at hk
      have := (cube_inj (Option.some.inj hk)).1
      rw [kidLo_zero, kidLo_zero] at this
      exact this.symm
    · -- the window is inside one child
      have hin : ∀ n, n ≤ 7 → i + 8 ≤ koff f (n + 1) → ∃ r ≤ n, koff f r ≤ i ∧ i + 8 ≤ koff f (r + 1) := by
        intro n
        induction n with
        | zero => intro _ h; exact ⟨0, le_refl _, by rw [koff_zero]; omega, h⟩
        | succ n ihn =>
          intro hn h
          rcases Nat.lt_or_ge i (koff f (n + 1)) with h' | h'
          · rcases Nat.lt_or_ge (koff f (n + 1)) (i + 8) with h2 | h2
            · exact absurd ⟨n, by omega, h', h2⟩ hst
            · obtain ⟨r, a, b⟩ := ihn (by omega) h2; exact ⟨r, by omega, b⟩
          · exact ⟨n + 1, le_refl _, h', h⟩
      obtain ⟨r, hr, a, b⟩ := hin 7 (le_refl _) hlen'
      refine Or.inr ⟨r, by omega, i - koff f r, ?_, ?_⟩
      · rw [hf]; omega
      · refine ih r (kidLo lo (2 ^ e) r) (i - koff f r) q s hs (fun k hk => ?_)
        have := hw k hk
        rw [show i + k = koff f r + (i - koff f r + k) by omega, koff_get f 8 r _ (by omega) (by rw [koff_succ] at b; omega), hfr] at this
        exact this

end Shamrock.Amr
