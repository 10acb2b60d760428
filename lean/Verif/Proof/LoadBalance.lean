import Verif.Model.LoadBalance
import Verif.Proof.Float
import Mathlib.Algebra.Order.Floor.Ring
import Mathlib.Data.List.Basic
import Mathlib.Data.List.Nodup
import Mathlib.Data.List.Perm.Basic
import Mathlib.Algebra.BigOperators.Group.List.Basic
/-! Helper lemmas for load balancing. -/
namespace Shamrock

/-- Prefix sums without wrap around. -/
def accN (inc : LBTile → Nat) : List (LBTile × Nat) → Nat → List ((LBTile × Nat) × Nat)
  | [], _ => []
  | t :: ts, a => (t, a) :: accN inc ts (a + inc t.1)

theorem lbAccum_eq (inc : LBTile → Nat) (l : List (LBTile × Nat)) (a : Nat) (h : a + (l.map (fun t => inc t.1)).sum < 2 ^ 64) :
    lbAccum inc l a = accN inc l a := by
  induction l generalizing a with
  | nil => rfl
  | cons t ts ih =>
    simp only [List.map_cons, List.sum_cons] at h
    have : u64add a (inc t.1) = a + inc t.1 := Nat.mod_eq_of_lt (by omega)
    simp only [lbAccum, accN, this]
    rw [ih _ (by omega)]

theorem accN_fst (inc : LBTile → Nat) (l : List (LBTile × Nat)) (a : Nat) : (accN inc l a).map (·.1) = l := by
  induction l generalizing a with
  | nil => rfl
  | cons t ts ih => simp [accN, ih]

theorem accN_ge (inc : LBTile → Nat) (l : List (LBTile × Nat)) (a : Nat) : ∀ r ∈ accN inc l a, a ≤ r.2 := by
  induction l generalizing a with
  | nil => simp [accN]
  | cons t ts ih =>
    intro r hr
    rcases List.mem_cons.1 hr with rfl | hr
    · exact le_rfl
    · have := ih _ r hr; omega

theorem accN_pairwise (inc : LBTile → Nat) (l : List (LBTile × Nat)) (a : Nat) :
    (accN inc l a).Pairwise (fun x y => x.2 ≤ y.2) := by
  induction l generalizing a with
  | nil => exact List.Pairwise.nil
  | cons t ts ih =>
    refine List.pairwise_cons.2 ⟨fun r hr => ?_, ih _⟩
    have := accN_ge inc ts _ r hr
    simp only; omega

theorem accN_le_last (inc : LBTile → Nat) (l : List (LBTile × Nat)) (a : Nat) (m) (hm : (accN inc l a).getLast? = some m) :
    ∀ r ∈ accN inc l a, r.2 ≤ m.2 := by
  intro r hr
  obtain ⟨ys, e⟩ := List.getLast?_eq_some_iff.1 hm
  have hp := accN_pairwise inc l a
  rw [e] at hr hp
  rcases List.mem_append.1 hr with h | h
  · exact (List.pairwise_append.1 hp).2.2 r h m (by simp)
  · simp only [List.mem_singleton] at h; rw [h]

theorem accN_last_le (inc : LBTile → Nat) (l : List (LBTile × Nat)) (a : Nat) (m) (hm : m ∈ accN inc l a) :
    m.2 + inc m.1.1 ≤ a + (l.map (fun t => inc t.1)).sum := by
  induction l generalizing a with
  | nil => simp [accN] at hm
  | cons t ts ih =>
    simp only [List.map_cons, List.sum_cons]
    rcases List.mem_cons.1 hm with rfl | hm
    · simp only; omega
    · have := ih _ hm; omega

/-- Owner as a plain number. -/
def ownerN (R : F64Rnd) (target : ℚ) (w acc : Nat) : Nat :=
  if target = 0 then 0 else min ⌊R.fl (R.fl acc / target)⌋.toNat (w - 1)

theorem F64Rnd.nonneg (R : F64Rnd) {x : ℚ} (h : 0 ≤ x) : 0 ≤ R.fl x :=
  le_trans (mul_nonneg h (by norm_num)) (R.lo x h)

theorem F64Rnd.zero_iff (R : F64Rnd) {x : ℚ} (h : 0 ≤ x) : R.fl x = 0 ↔ x = 0 := by
  constructor
  · intro e
    have := R.lo x h
    rw [e] at this
    have : x ≤ 0 := by
      have h2 : x * (1 - 1 / 2 ^ 52) ≤ 0 := this
      norm_num at h2
      linarith
    linarith
  · rintro rfl
    have := R.hi 0 le_rfl
    have := R.nonneg (x := 0) le_rfl
    linarith

theorem lbTarget_nonneg (R : F64Rnd) (w last : Nat) : 0 ≤ lbTarget R w last :=
  R.nonneg (div_nonneg (R.nonneg (Nat.cast_nonneg _)) (Nat.cast_nonneg _))

theorem ownerN_lt (R : F64Rnd) (target : ℚ) (w acc : Nat) (hw : 0 < w) : ownerN R target w acc < w := by
  unfold ownerN
  split
  · exact hw
  · have := min_le_right ⌊R.fl (R.fl acc / target)⌋.toNat (w - 1)
    omega

theorem quot_mono (R : F64Rnd) {target : ℚ} (ht : 0 ≤ target) {a b : Nat} (h : a ≤ b) :
    R.fl (R.fl a / target) ≤ R.fl (R.fl b / target) := by
  have h1 : R.fl (a:ℚ) ≤ R.fl b := R.mono _ _ (Nat.cast_nonneg _) (by exact_mod_cast h)
  exact R.mono _ _ (div_nonneg (R.nonneg (Nat.cast_nonneg _)) ht) (div_le_div_of_nonneg_right h1 ht)

theorem ownerN_mono (R : F64Rnd) {target : ℚ} (ht : 0 ≤ target) (w : Nat) {a b : Nat} (h : a ≤ b) :
    ownerN R target w a ≤ ownerN R target w b := by
  unfold ownerN
  split
  · exact le_rfl
  · exact min_le_min_right _ (Int.toNat_le_toNat (Int.floor_mono (quot_mono R ht h)))

theorem quot_last (R : F64Rnd) (w last : Nat) (hw : 0 < w) (hw2 : w < 2 ^ 31) (hl : 0 < last) :
    R.fl (R.fl last / lbTarget R w last) < w + 1 := by
  have hL : 0 < R.fl (last:ℚ) := lt_of_le_of_ne (R.nonneg (Nat.cast_nonneg _))
    (fun e => by have := (R.zero_iff (Nat.cast_nonneg last)).1 e.symm; norm_cast at this; omega)
  have hwq : (0:ℚ) < w := by exact_mod_cast hw
  have hwq2 : (w:ℚ) < 2147483648 := by exact_mod_cast hw2
  have hT : R.fl last / w * (1 - 1 / 2 ^ 52) ≤ lbTarget R w last := R.lo _ (by positivity)
  have hT0 : 0 < lbTarget R w last := lt_of_lt_of_le (by positivity) hT
  have hq : R.fl last / lbTarget R w last ≤ w / (1 - 1 / 2 ^ 52) := by
    rw [div_le_div_iff₀ hT0 (by norm_num)]
    calc R.fl last * (1 - 1 / 2 ^ 52) = w * (R.fl last / w * (1 - 1 / 2 ^ 52)) := by field_simp
      _ ≤ w * lbTarget R w last := mul_le_mul_of_nonneg_left hT hwq.le
  have h1 := R.hi (R.fl last / lbTarget R w last) (by positivity)
  refine lt_of_le_of_lt h1 (lt_of_le_of_lt (mul_le_mul_of_nonneg_right hq (by norm_num)) ?_)
  norm_num only
  linarith

theorem lbOwner_eq (R : F64Rnd) (w last acc : Nat) (hw : 0 < w) (hw2 : w < 2 ^ 31) (h : acc ≤ last) :
    lbOwner R (lbTarget R w last) w acc = .ok (ownerN R (lbTarget R w last) w acc) := by
  unfold lbOwner ownerN
  by_cases h0 : lbTarget R w last = 0
  · rw [if_pos h0, if_pos h0]
  · rw [if_neg h0, if_neg h0]
    have hlast : 0 < last := by
      rcases Nat.eq_zero_or_pos last with e | e
      · exfalso; apply h0
        rw [e]; unfold lbTarget
        have e0 : R.fl ((0:Nat):ℚ) = 0 := (R.zero_iff (by norm_num)).2 (by norm_num)
        rw [e0, zero_div]; exact (R.zero_iff le_rfl).2 rfl
      · exact e
    have h1 := quot_mono R (lbTarget_nonneg R w last) h
    have h2 := lt_of_le_of_lt h1 (quot_last R w last hw hw2 hlast)
    have h3 : ⌊R.fl (R.fl acc / lbTarget R w last)⌋ ≤ w := by
      have := Int.floor_lt.2 (show R.fl (R.fl acc / lbTarget R w last) < ((w + 1 : ℤ) : ℚ) by push_cast; exact h2)
      omega
    unfold f64ToI32
    rw [if_pos (by omega)]
    rfl

theorem lbOwners_eq (R : F64Rnd) (w last : Nat) (hw : 0 < w) (hw2 : w < 2 ^ 31) (l : List ((LBTile × Nat) × Nat))
    (h : ∀ r ∈ l, r.2 ≤ last) :
    lbOwners R (lbTarget R w last) w l = .ok (l.map fun r => (r.1.2, ownerN R (lbTarget R w last) w r.2)) := by
  induction l with
  | nil => rfl
  | cons r rs ih =>
    simp only [lbOwners, lbOwner_eq R w last r.2 hw hw2 (h r List.mem_cons_self),
      ih (fun x hx => h x (List.mem_cons_of_mem _ hx)), Res.bind, List.map_cons]

theorem scatter_gen (os : List (Nat × Nat)) (tab : List Nat) :
    (os.foldl (fun tab io => tab.set io.1 io.2) tab).length = tab.length ∧
    ∀ i, (∀ io ∈ os, io.1 ≠ i) → (os.foldl (fun tab io => tab.set io.1 io.2) tab)[i]? = tab[i]? := by
  induction os generalizing tab with
  | nil => simp
  | cons o os ih =>
    obtain ⟨h1, h2⟩ := ih (tab.set o.1 o.2)
    refine ⟨by rw [List.foldl_cons, h1, List.length_set], fun i hi => ?_⟩
    rw [List.foldl_cons, h2 i (fun io hio => hi io (List.mem_cons_of_mem _ hio)), List.getElem?_set_ne (hi o List.mem_cons_self)]

theorem scatter_mem (os : List (Nat × Nat)) (tab : List Nat) (hnd : (os.map (·.1)).Nodup) (io : Nat × Nat) (hm : io ∈ os)
    (hlt : io.1 < tab.length) : (os.foldl (fun tab io => tab.set io.1 io.2) tab)[io.1]? = some io.2 := by
  induction os generalizing tab with
  | nil => simp at hm
  | cons o os ih =>
    rw [List.map_cons, List.nodup_cons] at hnd
    rw [List.foldl_cons]
    rcases List.mem_cons.1 hm with rfl | hm
    · rw [(scatter_gen os _).2 _ (fun x hx e => hnd.1 (by rw [← e]; exact List.mem_map_of_mem (f := (·.1)) hx))]
      rw [List.getElem?_set_self hlt]
    · exact ih _ hnd.2 hm (by rw [List.length_set]; exact hlt)

/-- What one strategy computes: a table, and the accumulated value every tile was given. -/
theorem lbStrategy_spec (R : F64Rnd) (S : SortImpl) (inc : LBTile → Nat) (w : Nat) (tiles : List LBTile) (hw : 0 < w)
    (hw2 : w < 2 ^ 31) (hne : tiles ≠ []) (hs : (tiles.map inc).sum < 2 ^ 64) :
    ∃ (tab : List Nat) (last : Nat), lbStrategy R S inc w tiles = .ok tab ∧ tab.length = tiles.length ∧
      last ≤ (tiles.map inc).sum ∧
      (∀ r ∈ accN inc (S.run tiles.zipIdx) 0, r.2 ≤ last) ∧
      ∀ r ∈ accN inc (S.run tiles.zipIdx) 0, tiles[r.1.2]? = some r.1.1 ∧ tab[r.1.2]? = some (ownerN R (lbTarget R w last) w r.2) := by
  have hp := S.perm tiles.zipIdx
  have hsum : ((S.run tiles.zipIdx).map (fun t => inc t.1)).sum = (tiles.map inc).sum := by
    rw [(hp.map (fun t => inc t.1)).sum_eq]
    have : (tiles.zipIdx.map (fun t => inc t.1)) = (tiles.zipIdx.map Prod.fst).map inc := by rw [List.map_map]; rfl
    rw [this, List.zipIdx_map_fst]
  have hacc : lbAccum inc (S.run tiles.zipIdx) 0 = accN inc (S.run tiles.zipIdx) 0 := lbAccum_eq _ _ _ (by rw [hsum]; omega)
  have hlen : (accN inc (S.run tiles.zipIdx) 0).length = tiles.length := by
    have := congrArg List.length (accN_fst inc (S.run tiles.zipIdx) 0)
    rw [List.length_map] at this
    rw [this, hp.length_eq, List.length_zipIdx]
  obtain ⟨m, hm⟩ : ∃ m, (accN inc (S.run tiles.zipIdx) 0).getLast? = some m := by
    cases h : (accN inc (S.run tiles.zipIdx) 0).getLast? with
    | some m => exact ⟨m, rfl⟩
    | none =>
      rw [List.getLast?_eq_none_iff] at h
      rw [h] at hlen
      exact absurd (List.length_eq_zero_iff.1 hlen.symm) hne
  have hle := accN_le_last inc _ 0 m hm
  have hmm : m ∈ accN inc (S.run tiles.zipIdx) 0 := List.mem_of_getLast? hm
  have hml := accN_last_le inc _ 0 m hmm
  refine ⟨lbScatter tiles.length ((accN inc (S.run tiles.zipIdx) 0).map fun r => (r.1.2, ownerN R (lbTarget R w m.2) w r.2)), m.2, ?_, ?_,
    by omega, hle, ?_⟩
  · unfold lbStrategy
    rw [hacc, hm]
    simp only [lbOwners_eq R w m.2 hw hw2 _ hle, Res.bind]
  · unfold lbScatter
    rw [(scatter_gen _ _).1, List.length_replicate]
  · intro r hr
    have hr1 : r.1 ∈ S.run tiles.zipIdx := by
      have := List.mem_map_of_mem (f := (·.1)) hr
      rwa [accN_fst] at this
    have hr2 := List.mem_zipIdx' (hp.mem_iff.1 hr1 : (r.1.1, r.1.2) ∈ tiles.zipIdx)
    refine ⟨by rw [List.getElem?_eq_getElem hr2.1]; exact congrArg some hr2.2.symm, ?_⟩
    have := scatter_mem ((accN inc (S.run tiles.zipIdx) 0).map fun r => (r.1.2, ownerN R (lbTarget R w m.2) w r.2))
      (List.replicate tiles.length 0) (by
        rw [List.map_map]
        have : ((fun io : Nat × Nat => io.1) ∘ fun r : (LBTile × Nat) × Nat => (r.1.2, ownerN R (lbTarget R w m.2) w r.2)) = (fun t : LBTile × Nat => t.2) ∘ (·.1) := rfl
        rw [this, ← List.map_map, accN_fst]
        rw [(hp.map _).nodup_iff, List.zipIdx_map_snd]
        exact List.nodup_range') (r.1.2, ownerN R (lbTarget R w m.2) w r.2) (List.mem_map.2 ⟨r, hr, rfl⟩)
      (by rw [List.length_replicate]; exact hr2.1)
    exact this

theorem accN_of_tile (S : SortImpl) (inc : LBTile → Nat) (tiles : List LBTile) (i : Nat) (t : LBTile) (h : tiles[i]? = some t) :
    ∃ a, ((t, i), a) ∈ accN inc (S.run tiles.zipIdx) 0 := by
  have h1 : (t, i) ∈ S.run tiles.zipIdx := by
    rw [(S.perm _).mem_iff]
    exact List.mem_iff_getElem?.2 ⟨i, by simp [List.getElem?_zipIdx, h]⟩
  rw [← accN_fst inc (S.run tiles.zipIdx) 0] at h1
  obtain ⟨⟨p, a⟩, hr, rfl⟩ := List.mem_map.1 h1
  exact ⟨a, hr⟩

theorem pairwise_mem {α : Type} {Q : α → α → Prop} {l : List α} (h : l.Pairwise Q) {x y : α} (hx : x ∈ l) (hy : y ∈ l) :
    x = y ∨ Q x y ∨ Q y x := by
  induction l with
  | nil => simp at hx
  | cons a l ih =>
    obtain ⟨h1, h2⟩ := List.pairwise_cons.1 h
    rcases List.mem_cons.1 hx with ex | hx' <;> rcases List.mem_cons.1 hy with ey | hy'
    · exact Or.inl (ex.trans ey.symm)
    · exact Or.inr (Or.inl (ex ▸ h1 _ hy'))
    · exact Or.inr (Or.inr (ey ▸ h1 _ hx'))
    · exact ih h2 hx' hy'

theorem acc_order (S : SortImpl) (inc : LBTile → Nat) (tiles : List LBTile) {x y : (LBTile × Nat) × Nat}
    (hx : x ∈ accN inc (S.run tiles.zipIdx) 0) (hy : y ∈ accN inc (S.run tiles.zipIdx) 0) (h : x.1.1.ord < y.1.1.ord) : x.2 ≤ y.2 := by
  have hp : (accN inc (S.run tiles.zipIdx) 0).Pairwise (fun a b => a.1.1.ord ≤ b.1.1.ord) := by
    have := S.sorted tiles.zipIdx
    rw [← accN_fst inc (S.run tiles.zipIdx) 0] at this
    exact (List.pairwise_map (f := fun x : (LBTile × Nat) × Nat => x.1)).1 this
  have := (hp.and (accN_pairwise inc (S.run tiles.zipIdx) 0))
  rcases pairwise_mem this hx hy with rfl | h1 | h1
  · exact le_rfl
  · exact h1.2
  · omega

/-- Rank load: the sum of the loads of the tiles given to rank `k`. -/
def rankLoad (l : List (LBTile × Nat)) (k : Nat) : Nat := ((l.filter (fun t => t.2 = k)).map (·.1.load)).sum

theorem rankLoad_cons (t : LBTile) (o : Nat) (l : List (LBTile × Nat)) (k : Nat) :
    rankLoad ((t, o) :: l) k = (if o = k then t.load else 0) + rankLoad l k := by
  unfold rankLoad
  by_cases h : o = k <;> simp [h]

theorem rankLoad_le (l : List (LBTile × Nat)) (k : Nat) : rankLoad l k ≤ (l.map (·.1.load)).sum := by
  induction l with
  | nil => simp [rankLoad]
  | cons a l ih =>
    obtain ⟨t, o⟩ := a
    rw [rankLoad_cons, List.map_cons, List.sum_cons]
    split <;> simp only <;> omega

theorem lbLoads_eq (w : Nat) (l : List (LBTile × Nat)) (hl : ∀ x ∈ l, x.2 < w) (tab : List Nat) (ht : tab.length = w)
    (hs : ∀ (k v : Nat), tab[k]? = some v → v + (l.map (·.1.load)).sum < 2 ^ 64) :
    ∃ res, lbLoads l tab = .ok res ∧ res.length = w ∧ ∀ (k v : Nat), tab[k]? = some v → res[k]? = some (v + rankLoad l k) := by
  induction l generalizing tab with
  | nil => exact ⟨tab, rfl, ht, fun k v h => by rw [h]; simp [rankLoad]⟩
  | cons a l ih =>
    obtain ⟨t, o⟩ := a
    have ho : o < w := hl (t, o) List.mem_cons_self
    have hg : tab[o]? = some (tab[o]'(by omega)) := List.getElem?_eq_getElem (by omega)
    set v0 := tab[o]'(by omega)
    have hb := hs o v0 hg
    simp only [List.map_cons, List.sum_cons] at hb hs
    have hu : u64add v0 t.load = v0 + t.load := Nat.mod_eq_of_lt (by omega)
    obtain ⟨res, h1, h2, h3⟩ := ih (fun x hx => hl x (List.mem_cons_of_mem _ hx)) (tab.set o (v0 + t.load))
      (by rw [List.length_set]; exact ht) (by
        intro k v hk
        by_cases hko : o = k
        · subst hko
          rw [List.getElem?_set_self (by omega)] at hk
          simp only [Option.some.injEq] at hk
          omega
        · rw [List.getElem?_set_ne hko] at hk
          have := hs k v hk
          omega)
    refine ⟨res, ?_, h2, fun k v hk => ?_⟩
    · simp only [lbLoads, hg, hu, h1]
    · rw [rankLoad_cons]
      by_cases hko : o = k
      · subst hko
        rw [hg] at hk
        simp only [Option.some.injEq] at hk
        rw [h3 o (v0 + t.load) (by rw [List.getElem?_set_self (by omega)]), if_pos rfl]
        congr 1; omega
      · rw [h3 k v (by rw [List.getElem?_set_ne hko]; exact hk), if_neg hko]
        congr 1; omega

theorem le_lbMax_gen (R : F64Rnd) (loads : List Nat) (m0 : ℚ) : m0 ≤ loads.foldl (fun (m : ℚ) (v : Nat) => max m (R.fl v)) m0 ∧
    ∀ v ∈ loads, R.fl v ≤ loads.foldl (fun (m : ℚ) (v : Nat) => max m (R.fl v)) m0 := by
  induction loads generalizing m0 with
  | nil => simp
  | cons a l ih =>
    obtain ⟨h1, h2⟩ := ih (max m0 (R.fl a))
    rw [List.foldl_cons]
    refine ⟨le_trans (le_max_left _ _) h1, fun v hv => ?_⟩
    rcases List.mem_cons.1 hv with rfl | hv
    · exact le_trans (le_max_right _ _) h1
    · exact h2 v hv

theorem lbMax_le (R : F64Rnd) (loads : List Nat) (B : ℚ) (m0 : ℚ) (h0 : m0 ≤ B) (h : ∀ v ∈ loads, R.fl v ≤ B) :
    loads.foldl (fun (m : ℚ) (v : Nat) => max m (R.fl v)) m0 ≤ B := by
  induction loads generalizing m0 with
  | nil => exact h0
  | cons a l ih =>
    rw [List.foldl_cons]
    exact ih _ (max_le h0 (h a List.mem_cons_self)) (fun v hv => h v (List.mem_cons_of_mem _ hv))

theorem rankLoad_perm {l l' : List (LBTile × Nat)} (h : l.Perm l') (k : Nat) : rankLoad l k = rankLoad l' k := by
  unfold rankLoad
  exact ((h.filter _).map _).sum_eq

theorem zip_eq_zipIdx (tiles : List LBTile) (tab : List Nat) (h : tab.length = tiles.length) :
    tiles.zip tab = tiles.zipIdx.map (fun t => (t.1, tab.getD t.2 0)) := by
  apply List.ext_getElem?
  intro i
  rw [List.getElem?_map, List.getElem?_zipIdx]
  by_cases hi : i < tiles.length
  · rw [List.getElem?_eq_getElem (by rw [List.length_zip]; omega), List.getElem_zip, List.getElem?_eq_getElem hi]
    simp [List.getD_eq_getElem?_getD, List.getElem?_eq_getElem (show i < tab.length by omega)]
  · rw [List.getElem?_eq_none (by rw [List.length_zip]; omega), List.getElem?_eq_none (by omega)]
    rfl

theorem rankLoad_acc (S : SortImpl) (inc : LBTile → Nat) (tiles : List LBTile) (tab : List Nat) (h : tab.length = tiles.length)
    (f : Nat → Nat) (hf : ∀ r ∈ accN inc (S.run tiles.zipIdx) 0, tab[r.1.2]? = some (f r.2)) (k : Nat) :
    rankLoad (tiles.zip tab) k = rankLoad ((accN inc (S.run tiles.zipIdx) 0).map (fun r => (r.1.1, f r.2))) k := by
  rw [zip_eq_zipIdx tiles tab h]
  rw [← rankLoad_perm ((S.perm tiles.zipIdx).map (fun t => (t.1, tab.getD t.2 0))) k]
  congr 1
  conv_lhs => rw [← accN_fst inc (S.run tiles.zipIdx) 0]
  rw [List.map_map]
  apply List.map_congr_left
  intro r hr
  simp [List.getD_eq_getElem?_getD, hf r hr]

/-- Loads of the tiles whose prefix sum lies in a window: at most the width plus the largest load. -/
theorem window_sum (f : Nat → Nat) (k : Nat) (lo hi M : ℚ) (hM : 0 ≤ M) (hlh : lo ≤ hi) (l : List (LBTile × Nat)) (a : Nat)
    (hl : ∀ t ∈ l, (t.1.load : ℚ) ≤ M)
    (hw : ∀ r ∈ accN LBTile.load l a, f r.2 = k → lo ≤ r.2 ∧ (r.2 : ℚ) ≤ hi) :
    (rankLoad ((accN LBTile.load l a).map (fun r => (r.1.1, f r.2))) k : ℚ) ≤ (if (a : ℚ) ≤ hi then M + (hi - max lo a) else 0) := by
  induction l generalizing a with
  | nil =>
    simp only [accN, List.map_nil, rankLoad, List.filter_nil, List.sum_nil, Nat.cast_zero]
    split
    · rename_i h
      have := max_le hlh h
      linarith
    · exact le_rfl
  | cons t ts ih =>
    have h1 := ih (a + t.1.load) (fun x hx => hl x (List.mem_cons_of_mem _ hx)) (fun r hr => hw r (List.mem_cons_of_mem _ hr))
    have ht := hl t List.mem_cons_self
    have h0 := hw (t, a) List.mem_cons_self
    have hcast : ((a + t.1.load : Nat) : ℚ) = a + t.1.load := by push_cast; rfl
    have hnn : (0:ℚ) ≤ t.1.load := Nat.cast_nonneg _
    simp only [accN, List.map_cons]
    rw [rankLoad_cons]
    rw [hcast] at h1
    by_cases hk : f a = k
    · obtain ⟨b1, b2⟩ := h0 hk
      simp only at b1 b2
      rw [if_pos hk, if_pos b2, max_eq_right b1]
      push_cast
      by_cases h2 : (a : ℚ) + t.1.load ≤ hi
      · rw [if_pos h2, max_eq_right (by linarith)] at h1; linarith
      · rw [if_neg h2] at h1; linarith
    · rw [if_neg hk, Nat.zero_add]
      refine h1.trans ?_
      by_cases h2 : (a : ℚ) + t.1.load ≤ hi
      · rw [if_pos h2, if_pos (by linarith)]
        have := max_le_max (le_refl lo) (show (a:ℚ) ≤ a + t.1.load by linarith)
        linarith
      · rw [if_neg h2]
        split
        · rename_i h3
          have := max_le hlh h3
          linarith
        · exact le_rfl

/-- Prefix sums of the tiles of one rank lie in a window little wider than the target. -/
theorem owner_window (R : F64Rnd) (w last acc k : Nat) (hw : 0 < w) (hw2 : w < 2 ^ 31) (hacc : acc ≤ last)
    (hk : ownerN R (lbTarget R w last) w acc = k) :
    (k : ℚ) * (last / w) * (1 - 1 / 2 ^ 49) ≤ acc ∧ (acc : ℚ) ≤ (k + 1) * (last / w) * (1 + 1 / 2 ^ 49) := by
  have hwq : (0:ℚ) < w := by exact_mod_cast hw
  rcases Nat.eq_zero_or_pos last with e | hl
  · have : acc = 0 := by omega
    subst this; rw [e]; norm_num
  · have hlq : (0:ℚ) < last := by exact_mod_cast hl
    have haq : (0:ℚ) ≤ acc := Nat.cast_nonneg _
    have hL1 := R.lo (last:ℚ) hlq.le
    have hL2 := R.hi (last:ℚ) hlq.le
    have hL0 : 0 < R.fl (last:ℚ) := lt_of_lt_of_le (by positivity) hL1
    have hT1 : R.fl last / w * (1 - 1 / 2 ^ 52) ≤ lbTarget R w last := R.lo _ (by positivity)
    have hT2 : lbTarget R w last ≤ R.fl last / w * (1 + 1 / 2 ^ 52) := R.hi _ (by positivity)
    have hT0 : 0 < lbTarget R w last := lt_of_lt_of_le (by positivity) hT1
    have hA1 := R.lo (acc:ℚ) haq
    have hA2 := R.hi (acc:ℚ) haq
    have hA0 := R.nonneg haq
    have hV1 := R.lo (R.fl acc / lbTarget R w last) (by positivity)
    have hV2 := R.hi (R.fl acc / lbTarget R w last) (by positivity)
    have hV0 : 0 ≤ R.fl (R.fl acc / lbTarget R w last) := R.nonneg (by positivity)
    set t := lbTarget R w last
    set T : ℚ := last / w with hTdef
    have hT : 0 < T := by positivity
    have ht1 : T * (1 - 1 / 2 ^ 52) * (1 - 1 / 2 ^ 52) ≤ t := by
      refine le_trans (mul_le_mul_of_nonneg_right ?_ (by norm_num)) hT1
      rw [hTdef, le_div_iff₀ hwq]
      calc (last / w * (1 - 1 / 2 ^ 52) * w : ℚ) = last * (1 - 1 / 2 ^ 52) := by field_simp
        _ ≤ _ := hL1
    have ht2 : t ≤ T * (1 + 1 / 2 ^ 52) * (1 + 1 / 2 ^ 52) := by
      refine le_trans hT2 (mul_le_mul_of_nonneg_right ?_ (by norm_num))
      rw [hTdef, div_le_iff₀ hwq]
      calc R.fl last ≤ last * (1 + 1 / 2 ^ 52) := hL2
        _ = (last / w * (1 + 1 / 2 ^ 52) * w : ℚ) := by field_simp
    unfold ownerN at hk
    rw [if_neg (ne_of_gt hT0)] at hk
    set v := R.fl (R.fl acc / t)
    have hfl : 0 ≤ ⌊v⌋ := Int.floor_nonneg.2 hV0
    have hkv : (k : ℚ) ≤ v := by
      have h1 : k ≤ ⌊v⌋.toNat := by rw [← hk]; exact min_le_left _ _
      have h2 : (k : ℤ) ≤ ⌊v⌋ := by omega
      exact_mod_cast Int.le_floor.1 h2
    have hkq : (0:ℚ) ≤ k := Nat.cast_nonneg _
    constructor
    · have h1 : (k:ℚ) * t ≤ R.fl acc * (1 + 1 / 2 ^ 52) := by
        have : (k:ℚ) ≤ R.fl acc / t * (1 + 1 / 2 ^ 52) := hkv.trans hV2
        calc (k:ℚ) * t ≤ (R.fl acc / t * (1 + 1 / 2 ^ 52)) * t := mul_le_mul_of_nonneg_right this hT0.le
          _ = _ := by field_simp
      have h2 : (k:ℚ) * (T * (1 - 1 / 2 ^ 52) * (1 - 1 / 2 ^ 52)) ≤ acc * (1 + 1 / 2 ^ 52) * (1 + 1 / 2 ^ 52) :=
        (mul_le_mul_of_nonneg_left ht1 hkq).trans (h1.trans (mul_le_mul_of_nonneg_right hA2 (by norm_num)))
      have hkT : 0 ≤ (k:ℚ) * T := by positivity
      have h3 : ((k:ℚ) * T) * ((1 - 1 / 2 ^ 52) * (1 - 1 / 2 ^ 52)) ≤ acc * ((1 + 1 / 2 ^ 52) * (1 + 1 / 2 ^ 52)) :=
        le_trans (le_of_eq (by ring)) (h2.trans (le_of_eq (by ring)))
      generalize (k:ℚ) * T = z at hkT h3 ⊢
      norm_num at h3 ⊢
      linarith
    · rcases Nat.lt_or_ge k (w - 1) with hlt | hge
      · have hvk : v < k + 1 := by
          have h1 : ⌊v⌋.toNat = k := by omega
          have h2 : ⌊v⌋ < (k : ℤ) + 1 := by omega
          have := Int.floor_lt.1 h2
          push_cast at this
          exact this
        have h1 : R.fl acc * (1 - 1 / 2 ^ 52) ≤ (k + 1) * t := by
          have : R.fl acc / t * (1 - 1 / 2 ^ 52) ≤ k + 1 := hV1.trans hvk.le
          calc R.fl acc * (1 - 1 / 2 ^ 52) = (R.fl acc / t * (1 - 1 / 2 ^ 52)) * t := by field_simp
            _ ≤ _ := mul_le_mul_of_nonneg_right this hT0.le
        have h2 : (acc:ℚ) * (1 - 1 / 2 ^ 52) * (1 - 1 / 2 ^ 52) ≤ (k + 1) * (T * (1 + 1 / 2 ^ 52) * (1 + 1 / 2 ^ 52)) :=
          (mul_le_mul_of_nonneg_right hA1 (by norm_num)).trans (h1.trans (mul_le_mul_of_nonneg_left ht2 (by positivity)))
        have hkT : 0 ≤ ((k:ℚ) + 1) * T := by positivity
        have h3 : (acc:ℚ) * (1 - 1 / 2 ^ 52) * (1 - 1 / 2 ^ 52) ≤ ((k + 1) * T) * ((1 + 1 / 2 ^ 52) * (1 + 1 / 2 ^ 52)) :=
          h2.trans (le_of_eq (by ring))
        generalize ((k:ℚ) + 1) * T = z at hkT h3 ⊢
        norm_num at h3 ⊢
        linarith
      · have hkw : k = w - 1 := by
          have := min_le_right ⌊v⌋.toNat (w - 1)
          omega
        have : ((k:ℚ) + 1) = w := by rw [hkw]; push_cast [Nat.cast_sub (show 1 ≤ w from hw)]; ring
        rw [this]
        have e : (w:ℚ) * T = last := by rw [hTdef]; field_simp
        rw [e]
        have : (acc:ℚ) ≤ last := by exact_mod_cast hacc
        norm_num
        linarith


theorem applyPacking_gen (ps : List Patch) (hp : ∀ (i : Nat) p, ps[i]? = some p → p.packNodeIndex ≠ u64max →
      ∃ q, ps[p.packNodeIndex]? = some q ∧ q.packNodeIndex = u64max)
    (tab0 : List Nat) (h0 : tab0.length = ps.length) (order : List Nat) (hnd : order.Nodup) (hlt : ∀ i ∈ order, i < ps.length)
    (cur : List Nat) (hc : cur.length = ps.length)
    (hcur : ∀ (j : Nat) q, ps[j]? = some q → q.packNodeIndex = u64max → cur[j]? = tab0[j]?) :
    ∃ res, applyPacking ps order cur = .ok res ∧ res.length = ps.length ∧
      ∀ (i : Nat) p, ps[i]? = some p → res[i]? =
        if p.packNodeIndex = u64max then tab0[i]? else if i ∈ order then tab0[p.packNodeIndex]? else cur[i]? := by
  induction order generalizing cur with
  | nil =>
    refine ⟨cur, rfl, hc, fun i p hi => ?_⟩
    by_cases h : p.packNodeIndex = u64max
    · rw [if_pos h]; exact hcur i p hi h
    · rw [if_neg h]; simp
  | cons i order ih =>
    obtain ⟨hn1, hn2⟩ := List.nodup_cons.1 hnd
    have hi : i < ps.length := hlt i List.mem_cons_self
    have hpi : ps[i]? = some ps[i] := List.getElem?_eq_getElem hi
    by_cases hu : (ps[i]).packNodeIndex = u64max
    · obtain ⟨res, h1, h2, h3⟩ := ih hn2 (fun x hx => hlt x (List.mem_cons_of_mem _ hx)) cur hc hcur
      refine ⟨res, ?_, h2, fun j p hj => ?_⟩
      · simp only [applyPacking, nodePackStep, hpi, hu, if_true, Res.bind, h1]
      · rw [h3 j p hj]
        by_cases h : p.packNodeIndex = u64max
        · rw [if_pos h, if_pos h]
        · rw [if_neg h, if_neg h]
          have : j ≠ i := by rintro rfl; rw [hpi] at hj; simp only [Option.some.injEq] at hj; rw [← hj] at h; exact h hu
          simp [List.mem_cons, this]
    · obtain ⟨q, hq1, hq2⟩ := hp i _ hpi hu
      have hql : (ps[i]).packNodeIndex < ps.length := (List.getElem?_eq_some_iff.1 hq1).1
      have hc1 := hcur _ q hq1 hq2
      obtain ⟨o, ho⟩ : ∃ o, tab0[(ps[i]).packNodeIndex]? = some o := ⟨tab0[(ps[i]).packNodeIndex]'(by omega), List.getElem?_eq_getElem _⟩
      rw [ho] at hc1
      obtain ⟨res, h1, h2, h3⟩ := ih hn2 (fun x hx => hlt x (List.mem_cons_of_mem _ hx)) (cur.set i o)
        (by rw [List.length_set]; exact hc) (fun j r hj hr => by
          have : i ≠ j := by rintro rfl; rw [hpi] at hj; simp only [Option.some.injEq] at hj; rw [← hj] at hr; exact hu hr
          rw [List.getElem?_set_ne this]; exact hcur j r hj hr)
      refine ⟨res, ?_, h2, fun j p hj => ?_⟩
      · simp only [applyPacking, nodePackStep, hpi, hu, if_false, Res.bind, hc1, h1]
      · rw [h3 j p hj]
        by_cases h : p.packNodeIndex = u64max
        · rw [if_pos h, if_pos h]
        · rw [if_neg h, if_neg h]
          by_cases hji : j = i
          · subst hji
            rw [hpi] at hj; simp only [Option.some.injEq] at hj
            rw [if_neg hn1, if_pos List.mem_cons_self, List.getElem?_set_self (by omega), ← hj, ho]
          · simp only [List.mem_cons, hji, false_or]
            rw [List.getElem?_set_ne (fun e => hji e.symm)]

theorem changeOps_spec (w : Nat) (l : List (Patch × Nat)) (i : Nat) (tags : List Nat) (ht : tags.length = w)
    (hl : ∀ x ∈ l, x.2 < w ∧ x.1.nodeOwnerId < w) :
    ∃ ops, changeOps w l i tags = .ok ops ∧
      ops.map (fun o => (o.patchId, o.patchIdx, o.ownerOld, o.ownerNew)) =
        ((l.zipIdx i).filter (fun x => x.1.2 ≠ x.1.1.nodeOwnerId)).map (fun x => (x.1.1.idPatch, x.2, x.1.1.nodeOwnerId, x.1.2)) ∧
      (∀ o ∈ ops, ∀ v : Nat, tags[o.ownerOld]? = some v → v ≤ o.tag) ∧
      ops.Pairwise (fun a b => a.ownerOld = b.ownerOld → a.tag < b.tag) := by
  induction l generalizing i tags with
  | nil => exact ⟨[], rfl, rfl, by simp, List.Pairwise.nil⟩
  | cons x l ih =>
    obtain ⟨p, new⟩ := x
    obtain ⟨hn, ho⟩ := hl (p, new) List.mem_cons_self
    simp only at hn ho
    have hl' := fun x hx => hl x (List.mem_cons_of_mem _ hx)
    by_cases he : new = p.nodeOwnerId
    · obtain ⟨ops, h1, h2, h3, h4⟩ := ih (i + 1) tags ht hl'
      refine ⟨ops, ?_, ?_, h3, h4⟩
      · simp only [changeOps, if_neg (show ¬ w ≤ new by omega), if_pos he, h1]
      · rw [h2]; simp [List.zipIdx_cons, he]
    · have hg : tags[p.nodeOwnerId]? = some (tags[p.nodeOwnerId]'(by omega)) := List.getElem?_eq_getElem (by omega)
      set t := tags[p.nodeOwnerId]'(by omega)
      obtain ⟨ops, h1, h2, h3, h4⟩ := ih (i + 1) (tags.set p.nodeOwnerId (t + 1)) (by rw [List.length_set]; exact ht) hl'
      refine ⟨⟨p.idPatch, i, p.nodeOwnerId, new, t⟩ :: ops, ?_, ?_, ?_, ?_⟩
      · simp only [changeOps, if_neg (show ¬ w ≤ new by omega), if_neg he, hg, h1, Res.bind]
      · rw [List.map_cons, h2]; simp [List.zipIdx_cons, he]
      · intro o hom v hv
        rcases List.mem_cons.1 hom with rfl | hom
        · simp only at hv ⊢; rw [hg] at hv; simp only [Option.some.injEq] at hv; omega
        · by_cases heq : p.nodeOwnerId = o.ownerOld
          · rw [← heq, hg] at hv; simp only [Option.some.injEq] at hv
            have := h3 o hom (t + 1) (by rw [← heq, List.getElem?_set_self (by omega)])
            omega
          · exact h3 o hom v (by rw [List.getElem?_set_ne heq]; exact hv)
      · refine List.pairwise_cons.2 ⟨fun b hb heq => ?_, h4⟩
        simp only at heq ⊢
        have := h3 b hb (t + 1) (by rw [← heq, List.getElem?_set_self (by omega)])
        omega

end Shamrock
