import Verif.Proof.SetupIter
import Verif.Props.Collective
/-! The lattice iterators and the lattice node on all ranks. -/
namespace Shamrock.Setup

/-- The integers `a, …, b - 1`. -/
def ints (a b : Int) : List Int := (List.range (b - a).toNat).map fun (i : Nat) => a + (i : Int)

/-- All index triples of the box `[cmin, cmax)`, `x` fastest. -/
def idxBox (cmin cmax : Int × Int × Int) : List (Int × Int × Int) :=
  (ints cmin.2.2 cmax.2.2).flatMap fun k => (ints cmin.2.1 cmax.2.1).flatMap fun j => (ints cmin.1 cmax.1).map fun i => (i, j, k)

theorem mem_ints (a b i : Int) : i ∈ ints a b ↔ a ≤ i ∧ i < b := by
  simp only [ints, List.mem_map, List.mem_range]
  constructor
  · rintro ⟨n, hn, rfl⟩; omega
  · rintro ⟨h1, h2⟩; exact ⟨(i - a).toNat, by omega, by omega⟩

theorem ints_nodup (a b : Int) : (ints a b).Nodup := List.Nodup.map (fun x y h => by simp at h; omega) List.nodup_range

theorem ints_length (a b : Int) : (ints a b).length = (b - a).toNat := by simp [ints]

theorem mem_idxBox (cmin cmax : Int × Int × Int) (p : Int × Int × Int) : p ∈ idxBox cmin cmax ↔
    (cmin.1 ≤ p.1 ∧ p.1 < cmax.1) ∧ (cmin.2.1 ≤ p.2.1 ∧ p.2.1 < cmax.2.1) ∧ (cmin.2.2 ≤ p.2.2 ∧ p.2.2 < cmax.2.2) := by
  obtain ⟨i, j, k⟩ := p
  simp only [idxBox, List.mem_flatMap, List.mem_map, mem_ints, Prod.mk.injEq]
  constructor
  · rintro ⟨k', hk, j', hj, i', hi, rfl, rfl, rfl⟩; exact ⟨hi, hj, hk⟩
  · rintro ⟨hi, hj, hk⟩; exact ⟨k, hk, j, hj, i, hi, rfl, rfl, rfl⟩

theorem idxBox_nodup (cmin cmax : Int × Int × Int) : (idxBox cmin cmax).Nodup := by
  rw [idxBox, List.nodup_flatMap]
  refine ⟨fun k _ => ?_, (ints_nodup _ _).imp ?_⟩
  · rw [List.nodup_flatMap]
    refine ⟨fun j _ => List.Nodup.map (fun x y h => by simpa using h) (ints_nodup _ _), (ints_nodup _ _).imp ?_⟩
    intro a b hab x hx hy
    simp only [List.mem_map] at hx hy
    obtain ⟨i, _, rfl⟩ := hx
    obtain ⟨i', _, h⟩ := hy
    simp at h; exact hab h.2.symm
  · intro a b hab x hx hy
    simp only [List.mem_flatMap, List.mem_map] at hx hy
    obtain ⟨_, _, i, _, rfl⟩ := hx
    obtain ⟨_, _, i', _, h⟩ := hy
    simp at h; exact hab h.2.2.symm

/-- An iterator with its axes total. -/
structure GoodIt {X : Type} (g : LIt X) (c0 c1 c2 : Nat → Int) : Prop where
  hmax : g.max = g.d0 * g.d1 * g.d2
  hb : g.max < 2 ^ 63
  h0 : ∀ i, i < g.d0 → g.a0.get i = some (c0 i)
  h1 : ∀ i, i < g.d1 → g.a1.get i = some (c1 i)
  h2 : ∀ i, i < g.d2 → g.a2.get i = some (c2 i)

/-- The iterator `g` moved to position `c`. -/
def LIt.at {X : Type} (g : LIt X) (c : Nat) : LIt X := { g with idx := c, done := decide (g.max ≤ c) }

/-- Point number `c` of the iterator. -/
def latPt {X : Type} (g : LIt X) (c0 c1 c2 : Nat → Int) (c : Nat) : X :=
  g.pt (c0 (c % g.d0)) (c1 (c / g.d0 % g.d1)) (c2 (c / (g.d0 * g.d1)))

/-- The points `c, …, d - 1`. -/
def latSeg {X : Type} (g : LIt X) (c0 c1 c2 : Nat → Int) (c d : Nat) : List X := (List.range' c (d - c)).map (latPt g c0 c1 c2)

theorem next_at {X : Type} (g : LIt X) (c0 c1 c2 : Nat → Int) (hg : GoodIt g c0 c1 c2) (c : Nat) (hc : c < g.max) :
    (g.at c).next = some (latPt g c0 c1 c2 c, g.at (c + 1)) := by
  obtain ⟨hmax, hb, h0, h1, h2⟩ := hg
  rw [hmax] at hc hb
  have hd2 : 0 < g.d2 := Nat.pos_of_ne_zero fun h => by rw [h] at hc; omega
  have hd01 : 0 < g.d0 * g.d1 := Nat.pos_of_ne_zero fun h => by rw [h] at hc; omega
  have hd0 : 0 < g.d0 := Nat.pos_of_mul_pos_right hd01
  have hd1 : 0 < g.d1 := Nat.pos_of_mul_pos_left hd01
  have hle : g.d0 * g.d1 ≤ g.d0 * g.d1 * g.d2 := Nat.le_mul_of_pos_right _ hd2
  have hmod : g.d0 * g.d1 % 2 ^ 64 = g.d0 * g.d1 := Nat.mod_eq_of_lt (by omega)
  have hcond : ¬ ((g.at c).d0 = 0 ∨ (g.at c).d1 = 0 ∨ (g.at c).d0 * (g.at c).d1 % 2 ^ 64 = 0) := by
    show ¬ (g.d0 = 0 ∨ g.d1 = 0 ∨ g.d0 * g.d1 % 2 ^ 64 = 0)
    rw [hmod]; omega
  unfold LIt.next
  rw [if_neg hcond]
  simp only [LIt.at, hmod, h0 _ (Nat.mod_lt _ hd0), h1 _ (Nat.mod_lt _ hd1), h2 _ ((Nat.div_lt_iff_lt_mul hd01).2 (by rw [Nat.mul_comm]; exact hc))]
  have hnd : decide (g.max ≤ c) = false := by simp only [decide_eq_false_iff_not, hmax]; omega
  have hu : u64add c 1 = c + 1 := Nat.mod_eq_of_lt (by omega)
  simp only [Option.bind_eq_bind, Option.bind_some, hnd, Bool.false_eq_true, if_false, hu, Bool.false_or]
  rfl

theorem latSeg_cons {X : Type} (g : LIt X) (c0 c1 c2 : Nat → Int) (c d : Nat) (h : c < d) :
    latSeg g c0 c1 c2 c d = latPt g c0 c1 c2 c :: latSeg g c0 c1 c2 (c + 1) d := by
  unfold latSeg
  rw [show d - c = (d - (c + 1)) + 1 by omega, List.range'_succ, List.map_cons]

theorem latSeg_nil {X : Type} (g : LIt X) (c0 c1 c2 : Nat → Int) (c d : Nat) (h : d ≤ c) : latSeg g c0 c1 c2 c d = [] := by
  unfold latSeg
  rw [show d - c = 0 by omega]; rfl

theorem nextN_at {X : Type} (g : LIt X) (c0 c1 c2 : Nat → Int) (hg : GoodIt g c0 c1 c2) (n c : Nat) :
    LIt.nextN n (g.at c) = some (latSeg g c0 c1 c2 c (min (c + n) g.max), g.at (if c < g.max then min (c + n) g.max else c)) := by
  induction n generalizing c with
  | zero =>
    rw [LIt.nextN, latSeg_nil _ _ _ _ _ _ (by omega)]
    split
    · rw [show min (c + 0) g.max = c by omega]
    · rfl
  | succ n ih =>
    rw [LIt.nextN]
    by_cases hc : c < g.max
    · rw [if_neg (by simp [LIt.at]; omega), next_at g c0 c1 c2 hg c hc, Option.bind_some, ih, Option.map_some, if_pos hc,
        latSeg_cons _ _ _ _ c _ (by omega), show c + 1 + n = c + (n + 1) by omega]
      by_cases h2 : c + 1 < g.max
      · rw [if_pos h2]
      · rw [if_neg h2, show min (c + (n + 1)) g.max = c + 1 by omega]
    · rw [if_pos (by simp [LIt.at]; omega), latSeg_nil _ _ _ _ _ _ (by omega), if_neg hc]

theorem skip_at {X : Type} (g : LIt X) (n c : Nat) (h : c + n < 2 ^ 64) : (g.at c).skip n = g.at (if c < g.max then c + n else c) := by
  unfold LIt.skip
  simp only [LIt.at]
  by_cases hc : c < g.max
  · have h1 : decide (g.max ≤ c) = false := by simp; omega
    simp only [h1, Bool.false_eq_true, if_false, Bool.false_or, hc, if_true, u64add, Nat.mod_eq_of_lt h]
  · have h1 : decide (g.max ≤ c) = true := by simp; omega
    simp only [h1, if_true, Bool.true_or, hc, if_false]

theorem fetchView_eq (vals : List Nat) (r : Nat) (hs : vals.sum < 2 ^ 64) : fetchView vals r = (vals.sum, (vals.take r).sum) := by
  have hle := take_sum_le vals r
  unfold fetchView
  rw [accU64_eq, accU64_eq, Nat.mod_eq_of_lt hs, Nat.mod_eq_of_lt (by omega)]
  by_cases h : r = 0
  · subst h; simp
  · rw [if_neg h]

theorem latSeg_take_drop {X : Type} (g : LIt X) (c0 c1 c2 : Nat → Int) (c d a v : Nat) :
    ((latSeg g c0 c1 c2 c d).drop a).take v = latSeg g c0 c1 c2 (c + a) (min (c + a + v) d) := by
  unfold latSeg
  rw [← List.map_drop, ← List.map_take]
  congr 1
  apply List.ext_getElem?
  intro i
  rw [List.getElem?_take, List.getElem?_drop]
  by_cases h1 : i < v
  · rw [if_pos h1]
    by_cases h2 : a + i < d - c
    · rw [List.getElem?_range' (by omega), List.getElem?_range' (by omega)]; congr 1; omega
    · rw [List.getElem?_eq_none (by simp; omega), List.getElem?_eq_none (by simp; omega)]
  · rw [if_neg h1, List.getElem?_eq_none (by simp; omega)]

/-- One rank of the lattice node: the output is its part of what is left; afterwards the iterator is past everything requested, or at the end. -/
theorem latNext_at {X : Type} (keep : X → Bool) (g : LIt X) (c0 c1 c2 : Nat → Int) (hg : GoodIt g c0 c1 c2) (reqs : List Nat) (r c : Nat) (hc : c < g.max)
    (hs : reqs.sum < 2 ^ 63) :
    ∃ c', latNext keep reqs r (g.at c) = some ((((latSeg g c0 c1 c2 c g.max).drop (reqs.take r).sum).take (reqs.getD r 0)).filter keep, g.at c') ∧
      min c' g.max = min (c + reqs.sum) g.max := by
  have hle := take_sum_le reqs r
  have hb := hg.hb
  have h2 : u64sub (u64sub reqs.sum (reqs.getD r 0)) (reqs.take r).sum = reqs.sum - reqs.getD r 0 - (reqs.take r).sum := by unfold u64sub; omega
  unfold latNext
  simp only [fetchView_eq reqs r (by omega)]
  rw [skip_at g _ c (by omega), if_pos hc, nextN_at g c0 c1 c2 hg, Option.map_some, h2, latSeg_take_drop]
  simp only
  rw [skip_at]
  · refine ⟨_, rfl, ?_⟩
    by_cases h1 : c + (reqs.take r).sum < g.max
    · simp only [if_pos h1]; split <;> omega
    · simp only [if_neg h1]; omega
  · split <;> omega

theorem range_mul_map {X : Type} (a b : Nat) (f : Nat → X) : (List.range (a * b)).map f = (List.range b).flatMap fun j => (List.range a).map fun i => f (i + a * j) := by
  induction b with
  | zero => simp
  | succ b ih =>
    rw [Nat.mul_succ, List.range_add, List.map_append, ih, List.range_succ, List.flatMap_append, List.map_map]
    congr 1
    simp only [List.flatMap_cons, List.flatMap_nil, List.append_nil]
    apply List.map_congr_left
    intro i _
    simp only [Function.comp]
    rw [Nat.add_comm]

theorem latSeg_full {X : Type} (g : LIt X) (c0 c1 c2 : Nat → Int) (hg : GoodIt g c0 c1 c2) :
    latSeg g c0 c1 c2 0 g.max = ((List.range g.d2).map c2).flatMap fun k => ((List.range g.d1).map c1).flatMap fun j => ((List.range g.d0).map c0).map fun i => g.pt i j k := by
  unfold latSeg
  rw [hg.hmax, Nat.sub_zero, ← List.range_eq_range', range_mul_map (g.d0 * g.d1), List.flatMap_map]
  apply List.flatMap_congr
  intro k _
  rw [range_mul_map g.d0, List.flatMap_map]
  apply List.flatMap_congr
  intro j hj
  rw [List.map_map]
  apply List.map_congr_left
  intro i hi
  rw [List.mem_range] at hi hj
  simp only [latPt, Function.comp]
  have hd0 : 0 < g.d0 := by omega
  have hlt : i + g.d0 * j < g.d0 * g.d1 := by
    calc i + g.d0 * j < g.d0 + g.d0 * j := by omega
      _ = g.d0 * (j + 1) := by rw [Nat.mul_succ]; omega
      _ ≤ g.d0 * g.d1 := Nat.mul_le_mul_left _ (by omega)
  have e1 : (i + g.d0 * j + g.d0 * g.d1 * k) % g.d0 = i := by
    rw [Nat.mul_assoc, Nat.add_assoc, ← Nat.mul_add, Nat.add_mul_mod_self_left, Nat.mod_eq_of_lt hi]
  have e2 : (i + g.d0 * j + g.d0 * g.d1 * k) / g.d0 % g.d1 = j := by
    rw [Nat.mul_assoc, Nat.add_assoc, ← Nat.mul_add, Nat.add_mul_div_left _ _ hd0, Nat.div_eq_of_lt hi, Nat.zero_add, Nat.add_mul_mod_self_left, Nat.mod_eq_of_lt hj]
  have e3 : (i + g.d0 * j + g.d0 * g.d1 * k) / (g.d0 * g.d1) = k := by
    rw [Nat.add_mul_div_left _ _ (by omega), Nat.div_eq_of_lt hlt, Nat.zero_add]
  rw [e1, e2, e3]

/-- A freshly built axis lists the integers of its range, in some order. -/
def AxisOk (mkAxis : Int → Int → Option Axis) : Prop :=
  ∀ a b : Int, a ≤ b → b - a < 2 ^ 31 → ∃ (ax : Axis) (c : Nat → Int), mkAxis a b = some ax ∧ (∀ i, i < (b - a).toNat → ax.get i = some (c i)) ∧
    ((List.range (b - a).toNat).map c).Perm (ints a b)

theorem contAxis_ok : AxisOk contAxis := fun a b _ _ => ⟨.cont a, fun i => a + i, rfl, fun _ _ => rfl, List.Perm.refl _⟩

theorem discAxis_ok (fuel : Nat) (hf : 2 ^ 33 ≤ fuel) : AxisOk (discAxis fuel) := by
  intro a b hab hb
  obtain ⟨it, l, h1, h2, h3⟩ := dit_ok a b hab hb
  have hlen : l.length = (b - a).toNat := by rw [h3.length_eq]; simp
  refine ⟨.disc l, fun i => l.getD i 0, ?_, ?_, ?_⟩
  · simp only [discAxis, h1, Option.bind_some, h2 fuel hf, Option.map_some]
  · intro i hi
    rw [← hlen] at hi
    simp only [Axis.get, List.getD_eq_getElem?_getD, List.getElem?_eq_getElem hi, Option.getD_some]
  · refine List.Perm.trans (List.Perm.of_eq ?_) h3
    apply List.ext_getElem?
    intro i
    rw [List.getElem?_map]
    by_cases hi : i < l.length
    · rw [List.getElem?_range (by omega)]
      simp [List.getD_eq_getElem?_getD, List.getElem?_eq_getElem hi]
    · rw [List.getElem?_eq_none (by simp; omega), List.getElem?_eq_none (by omega)]; rfl

theorem flatMap_perm {A B : Type} (l l' : List A) (f g : A → List B) (h : l.Perm l') (hf : ∀ a ∈ l, (f a).Perm (g a)) : (l.flatMap f).Perm (l'.flatMap g) :=
  List.Perm.trans (List.Perm.flatMap_left l hf) (h.flatMap_right g)

theorem lit_fresh {X : Type} (mkAxis : Int → Int → Option Axis) (hax : AxisOk mkAxis) (pt : Int → Int → Int → X) (cmin cmax : Int × Int × Int)
    (h0 : cmin.1 ≤ cmax.1) (h1 : cmin.2.1 ≤ cmax.2.1) (h2 : cmin.2.2 ≤ cmax.2.2)
    (b0 : cmax.1 - cmin.1 < 2 ^ 31) (b1 : cmax.2.1 - cmin.2.1 < 2 ^ 31) (b2 : cmax.2.2 - cmin.2.2 < 2 ^ 31) (hsz : (idxBox cmin cmax).length < 2 ^ 63) :
    ∃ g c0 c1 c2, LIt.mk' mkAxis pt cmin cmax = some g ∧ GoodIt g c0 c1 c2 ∧ g = g.at 0 ∧
      (latSeg g c0 c1 c2 0 g.max).Perm ((idxBox cmin cmax).map fun p => pt p.1 p.2.1 p.2.2) := by
  obtain ⟨a0, c0, e0, t0, p0⟩ := hax _ _ h0 b0
  obtain ⟨a1, c1, e1, t1, p1⟩ := hax _ _ h1 b1
  obtain ⟨a2, c2, e2, t2, p2⟩ := hax _ _ h2 b2
  have dl : ∀ a b : Int, a ≤ b → b - a < 2 ^ 31 → axDelta a b = (b - a).toNat := fun a b ha hb => by
    unfold axDelta; rw [Int.emod_eq_of_lt (by omega) (by omega)]
  have hlen : (idxBox cmin cmax).length = axDelta cmin.1 cmax.1 * axDelta cmin.2.1 cmax.2.1 * axDelta cmin.2.2 cmax.2.2 := by
    rw [dl _ _ h0 b0, dl _ _ h1 b1, dl _ _ h2 b2]
    have hr : ∀ n v : Nat, (List.replicate n v).sum = n * v := by
      intro n v
      induction n with
      | zero => simp
      | succ n ih => rw [List.replicate_succ, List.sum_cons, ih, Nat.succ_mul]; omega
    simp only [idxBox, List.length_flatMap, List.length_map, ints_length, List.map_const', hr]
    rw [Nat.mul_comm, Nat.mul_comm (cmax.2.1 - cmin.2.1).toNat]
  have hmk : LIt.mk' mkAxis pt cmin cmax = some ⟨pt, a0, a1, a2, axDelta cmin.1 cmax.1, axDelta cmin.2.1 cmax.2.1, axDelta cmin.2.2 cmax.2.2, 0,
      axDelta cmin.1 cmax.1 * axDelta cmin.2.1 cmax.2.1 * axDelta cmin.2.2 cmax.2.2,
      decide (cmin.1 = cmax.1) || decide (cmin.2.1 = cmax.2.1) || decide (cmin.2.2 = cmax.2.2)⟩ := by
    unfold LIt.mk'
    simp only [e0, e1, e2, Option.bind_eq_bind, Option.bind_some]
    rw [Nat.mod_eq_of_lt (by omega)]
  have hgood : GoodIt (X := X) ⟨pt, a0, a1, a2, axDelta cmin.1 cmax.1, axDelta cmin.2.1 cmax.2.1, axDelta cmin.2.2 cmax.2.2, 0,
      axDelta cmin.1 cmax.1 * axDelta cmin.2.1 cmax.2.1 * axDelta cmin.2.2 cmax.2.2,
      decide (cmin.1 = cmax.1) || decide (cmin.2.1 = cmax.2.1) || decide (cmin.2.2 = cmax.2.2)⟩ c0 c1 c2 := by
    refine ⟨rfl, by simp only; omega, ?_, ?_, ?_⟩
    · simp only; rw [dl _ _ h0 b0]; exact t0
    · simp only; rw [dl _ _ h1 b1]; exact t1
    · simp only; rw [dl _ _ h2 b2]; exact t2
  refine ⟨_, c0, c1, c2, hmk, hgood, ?_, ?_⟩
  · simp only [LIt.at, LIt.mk.injEq, true_and]
    rw [Bool.eq_iff_iff]
    simp only [Bool.or_eq_true, decide_eq_true_eq, Nat.le_zero, Nat.mul_eq_zero, dl _ _ h0 b0, dl _ _ h1 b1, dl _ _ h2 b2]
    omega
  · rw [latSeg_full _ _ _ _ hgood]
    simp only [dl _ _ h0 b0, dl _ _ h1 b1, dl _ _ h2 b2, idxBox, List.map_flatMap]
    refine flatMap_perm _ _ _ _ p2 fun k _ => flatMap_perm _ _ _ _ p1 fun j _ => ?_
    rw [List.map_map (f := fun i => (i, j, k))]
    exact p0.map _

end Shamrock.Setup
