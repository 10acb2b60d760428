import Verif.Model.SparseComm
import Verif.Props.Serialize
import Verif.Props.Containers
/-! Proofs about the grouping and serialization of the exchanged data. -/
namespace Shamrock

theorem alignRepr_bound (n : Nat) (h : n < 2 ^ 62) : n ≤ alignRepr n ∧ alignRepr n < n + 8 ∧ alignRepr n % 8 = 0 := by
  have := alignRepr_spec n (by omega)
  omega

/-! ### Grouping -/

theorem grpInsert_perm (m : List ((Nat × Nat) × List SEnt)) (k : Nat × Nat) (e : SEnt) :
    ((grpInsert m k e).flatMap (·.2)).Perm (e :: m.flatMap (·.2)) := by
  induction m with
  | nil => simp [grpInsert]
  | cons g m ih =>
    unfold grpInsert
    split
    · simp only [List.flatMap_cons, List.append_assoc, List.singleton_append]
      exact List.perm_middle
    · split
      · simp
      · simp only [List.flatMap_cons]
        exact (List.Perm.append_left _ ih).trans List.perm_middle

theorem grpInsert_mem (m : List ((Nat × Nat) × List SEnt)) (k : Nat × Nat) (e : SEnt) :
    ∀ g ∈ grpInsert m k e, ∀ x ∈ g.2, (x = e ∧ g.1 = k) ∨ ∃ g' ∈ m, g'.1 = g.1 ∧ x ∈ g'.2 := by
  induction m with
  | nil =>
    intro g hg x hx
    simp only [grpInsert, List.mem_singleton] at hg
    subst hg
    simp only [List.mem_singleton] at hx
    exact Or.inl ⟨hx, rfl⟩
  | cons a m ih =>
    intro g hg x hx
    unfold grpInsert at hg
    split at hg
    · rename_i hk
      rcases List.mem_cons.1 hg with rfl | hg
      · simp only [List.mem_append, List.mem_singleton] at hx
        rcases hx with hx | hx
        · exact Or.inr ⟨a, List.mem_cons_self, rfl, hx⟩
        · exact Or.inl ⟨hx, hk⟩
      · exact Or.inr ⟨g, List.mem_cons_of_mem _ hg, rfl, hx⟩
    · split at hg
      · rcases List.mem_cons.1 hg with rfl | hg
        · simp only [List.mem_singleton] at hx
          exact Or.inl ⟨hx, rfl⟩
        · exact Or.inr ⟨g, hg, rfl, hx⟩
      · rcases List.mem_cons.1 hg with rfl | hg
        · exact Or.inr ⟨_, List.mem_cons_self, rfl, hx⟩
        · rcases ih g hg x hx with h | ⟨g', h1, h2⟩
          · exact Or.inl h
          · exact Or.inr ⟨g', List.mem_cons_of_mem _ h1, h2⟩

theorem groupByRank_aux (rk : Nat → Nat) (data : List SEnt) : ∀ m : List ((Nat × Nat) × List SEnt),
    (∀ g ∈ m, ∀ x ∈ g.2, (rk x.1.1, rk x.1.2) = g.1) →
    ((data.foldl (fun m e => grpInsert m (rk e.1.1, rk e.1.2) e) m).flatMap (·.2)).Perm (m.flatMap (·.2) ++ data) ∧
    ∀ g ∈ data.foldl (fun m e => grpInsert m (rk e.1.1, rk e.1.2) e) m, ∀ x ∈ g.2, (rk x.1.1, rk x.1.2) = g.1 := by
  induction data with
  | nil => intro m hm; exact ⟨by simp, hm⟩
  | cons e data ih =>
    intro m hm
    obtain ⟨h1, h2⟩ := ih (grpInsert m (rk e.1.1, rk e.1.2) e) (fun g hg x hx => by
      rcases grpInsert_mem _ _ _ g hg x hx with ⟨rfl, h⟩ | ⟨g', a1, a2, a3⟩
      · exact h.symm
      · rw [← a2]; exact hm g' a1 x a3)
    refine ⟨?_, h2⟩
    simp only [List.foldl_cons]
    refine h1.trans ?_
    refine (List.Perm.append_right _ (grpInsert_perm _ _ _)).trans ?_
    simp only [List.cons_append]
    exact List.perm_middle.symm

theorem groupByRank_spec (rk : Nat → Nat) (data : List SEnt) :
    ((groupByRank rk data).flatMap (·.2)).Perm data ∧ ∀ g ∈ groupByRank rk data, ∀ x ∈ g.2, (rk x.1.1, rk x.1.2) = g.1 := by
  have := groupByRank_aux rk data [] (by simp)
  simp only [List.flatMap_nil, List.nil_append] at this
  exact this

theorem pairLt_trans {a b c : Nat × Nat} (h1 : pairLt a b = true) (h2 : pairLt b c = true) : pairLt a c = true := by
  simp [pairLt] at *; omega

theorem pairLt_total {a b : Nat × Nat} (h1 : a ≠ b) (h2 : pairLt a b = false) : pairLt b a = true := by
  obtain ⟨a1, a2⟩ := a
  obtain ⟨b1, b2⟩ := b
  simp [pairLt] at *; omega

theorem grpInsert_sorted (m : List ((Nat × Nat) × List SEnt)) (k : Nat × Nat) (e : SEnt) (h : m.Pairwise fun a b => pairLt a.1 b.1 = true) :
    (grpInsert m k e).Pairwise fun a b => pairLt a.1 b.1 = true := by
  have hkeys : ∀ m : List ((Nat × Nat) × List SEnt), ∀ g ∈ grpInsert m k e, g.1 = k ∨ ∃ g' ∈ m, g'.1 = g.1 := by
    intro m
    induction m with
    | nil => intro g hg; simp only [grpInsert, List.mem_singleton] at hg; subst hg; exact Or.inl rfl
    | cons a m ih =>
      intro g hg
      unfold grpInsert at hg
      split at hg
      · rcases List.mem_cons.1 hg with rfl | hg
        · exact Or.inr ⟨a, List.mem_cons_self, rfl⟩
        · exact Or.inr ⟨g, List.mem_cons_of_mem _ hg, rfl⟩
      · split at hg
        · rcases List.mem_cons.1 hg with rfl | hg
          · exact Or.inl rfl
          · exact Or.inr ⟨g, hg, rfl⟩
        · rcases List.mem_cons.1 hg with rfl | hg
          · exact Or.inr ⟨_, List.mem_cons_self, rfl⟩
          · rcases ih g hg with h | ⟨g', h1, h2⟩
            · exact Or.inl h
            · exact Or.inr ⟨g', List.mem_cons_of_mem _ h1, h2⟩
  induction m with
  | nil => simp [grpInsert]
  | cons g m ih =>
    have h' := List.pairwise_cons.1 h
    unfold grpInsert
    split
    · exact List.pairwise_cons.2 ⟨h'.1, h'.2⟩
    · rename_i hne
      split
      · rename_i hlt
        refine List.pairwise_cons.2 ⟨fun z hz => ?_, h⟩
        rcases List.mem_cons.1 hz with rfl | hz
        · exact hlt
        · exact pairLt_trans hlt (h'.1 z hz)
      · rename_i hlt
        refine List.pairwise_cons.2 ⟨fun z hz => ?_, ih h'.2⟩
        rcases hkeys m z hz with hk | ⟨g', a1, a2⟩
        · rw [hk]; exact pairLt_total (fun e => hne e.symm) (by simpa using hlt)
        · rw [← a2]; exact h'.1 g' a1

theorem grpInsert_keyEq (f : Nat × Nat → Nat × Nat) (m : List ((Nat × Nat) × List SEnt)) (e : SEnt) (h : m.Pairwise fun a b => pairLt a.1 b.1 = true)
    (hf : ∀ g ∈ m, ∀ x ∈ g.2, f x.1 = g.1) : KeyEq ((grpInsert m (f e.1) e).flatMap (·.2)) (m.flatMap (·.2) ++ [e]) := by
  intro κ
  have hnone : ∀ m' : List ((Nat × Nat) × List SEnt), (∀ g ∈ m', g ∈ m) → (∀ g ∈ m', g.1 ≠ f e.1) → e.1 = κ →
      (m'.flatMap (·.2)).filter (fun e => decide (e.1 = κ)) = [] := by
    intro m' hs hne he
    rw [List.filter_eq_nil_iff]
    intro z hz hzk
    obtain ⟨g, hg, hzg⟩ := List.mem_flatMap.1 hz
    have h1 := hf g (hs g hg) z hzg
    have h2 : z.1 = κ := by simpa using hzk
    rw [h2, ← he] at h1
    exact hne g hg h1.symm
  induction m with
  | nil => rfl
  | cons g m ih =>
    have h' := List.pairwise_cons.1 h
    unfold grpInsert
    split
    · rename_i hk
      simp only [List.flatMap_cons]
      by_cases he : e.1 = κ
      · have hn := hnone m (fun g hg => List.mem_cons_of_mem _ hg) (fun g' hg' hc => by
          have h1 := h'.1 g' hg'
          rw [hk, hc, pairLt_irrefl] at h1; cases h1) he
        rw [List.filter_append, List.filter_append, List.filter_append, List.filter_append, hn]; simp
      · have hn : [e].filter (fun x => decide (x.1 = κ)) = [] := by simp [he]
        rw [List.filter_append, List.filter_append, List.filter_append, List.filter_append, hn]; simp
    · rename_i hne
      split
      · rename_i hlt
        rw [List.flatMap_cons]
        by_cases he : e.1 = κ
        · have hn := hnone (g :: m) (fun g hg => hg) (fun g' hg' hc => by
            rcases List.mem_cons.1 hg' with rfl | hg'
            · exact hne hc
            · have h1 := pairLt_trans hlt (h'.1 g' hg')
              rw [hc, pairLt_irrefl] at h1; cases h1) he
          rw [List.filter_append, List.filter_append, hn]; simp
        · have hn : [e].filter (fun x => decide (x.1 = κ)) = [] := by simp [he]
          rw [List.filter_append, List.filter_append]
          show List.filter _ [e] ++ _ = _
          rw [hn]; simp
      · rw [List.flatMap_cons, List.flatMap_cons, List.append_assoc, List.filter_append, List.filter_append,
          ih h'.2 (fun g hg => hf g (List.mem_cons_of_mem _ hg)) (fun m' hs => hnone m' (fun g hg => List.mem_cons_of_mem _ (hs g hg)))]

theorem groupByRank_keyEq (rk : Nat → Nat) (data : List SEnt) : KeyEq ((groupByRank rk data).flatMap (·.2)) data := by
  have aux : ∀ (data : List SEnt) (m : List ((Nat × Nat) × List SEnt)), (m.Pairwise fun a b => pairLt a.1 b.1 = true) →
      (∀ g ∈ m, ∀ x ∈ g.2, (rk x.1.1, rk x.1.2) = g.1) →
      KeyEq ((data.foldl (fun m e => grpInsert m (rk e.1.1, rk e.1.2) e) m).flatMap (·.2)) (m.flatMap (·.2) ++ data) := by
    intro data
    induction data with
    | nil => intro m _ _; simp [KeyEq]
    | cons e data ih =>
      intro m hs hm
      have h1 := ih (grpInsert m (rk e.1.1, rk e.1.2) e) (grpInsert_sorted _ _ _ hs) (fun g hg x hx => by
        rcases grpInsert_mem _ _ _ g hg x hx with ⟨rfl, h⟩ | ⟨g', a1, a2, a3⟩
        · exact h.symm
        · rw [← a2]; exact hm g' a1 x a3)
      simp only [List.foldl_cons]
      refine h1.trans ?_
      have := KeyEq.append (grpInsert_keyEq (fun k => (rk k.1, rk k.2)) m e hs hm) (KeyEq.refl data)
      simpa using this
  have := aux data [] List.Pairwise.nil (by simp)
  simpa [groupByRank] using this

/-! ### Packing into messages -/

/-- Bytes the payload of an entry takes. -/
def entA (e : SEnt) : Nat := alignRepr e.2.length

/-- Bytes a list of entries takes, without the pre-header. -/
def entsTotal (src : List SEnt) : Nat := 8 + 24 * src.length + (src.map entA).sum

def entsSize (src : List SEnt) : SSize := ⟨8 + 24 * src.length, (src.map entA).sum⟩

theorem entSize_eq (e : SEnt) (h : e.2.length < 2 ^ 61) : entSize e = ⟨24, entA e⟩ := by
  have hb := alignRepr_bound e.2.length (by omega)
  unfold entSize SSize.mul SSize.add byteSizeVal byteSizeBuf entA
  have e1 : tyU8.sz = 1 := rfl
  have e2 : alignRepr tyU64.sz = 8 := by decide
  rw [e1, e2, Nat.mul_one, u64_small e.2.length (by omega)]
  simp only [SSize.mk.injEq]
  constructor
  · decide
  · rw [show u64 (0 * 3) = 0 from rfl, Nat.zero_add, u64_small _ (by omega)]

theorem headSize_eq : byteSizeVal tyU64 = entsSize [] := by decide

theorem entsSize_total (src : List SEnt) (h : entsTotal src < 2 ^ 63) : (entsSize src).total = entsTotal src := by
  unfold entsTotal at h
  show u64 (8 + 24 * src.length + (src.map entA).sum) = 8 + 24 * src.length + (src.map entA).sum
  exact u64_small _ (by omega)

theorem add_size (src : List SEnt) (d : SEnt) (hd : d.2.length < 2 ^ 61) (h : entsTotal src < 2 ^ 63) :
    (entsSize src).add (entSize d) = entsSize (src ++ [d]) ∧ ((entSize d).add (entsSize src)).total = entsTotal (src ++ [d]) ∧
    entsTotal (src ++ [d]) = entsTotal src + 24 + entA d := by
  have hb : entA d < 2 ^ 61 + 8 := by
    have := alignRepr_bound d.2.length (by omega)
    unfold entA; omega
  rw [entSize_eq d hd]
  unfold entsTotal at h
  have e0 : ((src ++ [d]).map entA).sum = (src.map entA).sum + entA d := by simp
  have e1 : (src ++ [d]).length = src.length + 1 := by simp
  refine ⟨?_, ?_, ?_⟩
  · unfold entsSize SSize.add
    simp only [SSize.mk.injEq]
    rw [e0, e1, u64_small _ (by omega), u64_small _ (by omega)]
    constructor <;> omega
  · unfold entsSize SSize.add SSize.total entsTotal
    simp only
    rw [u64_small (24 + _) (by omega), u64_small (entA d + _) (by omega), u64_small _ (by omega), e0, e1]
    omega
  · unfold entsTotal
    rw [e0, e1]; omega

/-- A prepared message is well formed. -/
structure PComm.Ok (mx : Nat) (key : Nat × Nat) (c : PComm) : Prop where
  s : c.sender = key.1
  r : c.receiver = key.2
  sz : c.sz = entsSize c.src
  ne : c.src ≠ []
  le : entsTotal c.src ≤ mx

theorem addToRet_cases (mx : Nat) (key : Nat × Nat) (src : List SEnt) (ret : List PComm) (h : entsTotal src < 2 ^ 63) :
    (mx < entsTotal src ∧ addToRet mx key (entsSize src) src ret = .throws) ∨
    (entsTotal src ≤ mx ∧ ∃ new, addToRet mx key (entsSize src) src ret = .ok (ret ++ new) ∧ new.flatMap PComm.src = src ∧ ∀ c ∈ new, c.Ok mx key) := by
  unfold addToRet
  rw [entsSize_total src h]
  by_cases hc : entsTotal src > mx
  · left
    exact ⟨hc, if_pos hc⟩
  · right
    refine ⟨by omega, ?_⟩
    rw [if_neg hc]
    by_cases hs : src.length > 0
    · rw [if_pos hs]
      refine ⟨[⟨key.1, key.2, entsSize src, src⟩], rfl, by simp, ?_⟩
      intro c hc'
      simp only [List.mem_singleton] at hc'
      subst hc'
      exact ⟨rfl, rfl, rfl, by intro e; rw [show src = [] from e] at hs; simp at hs, by show entsTotal src ≤ mx; omega⟩
    · rw [if_neg hs]
      refine ⟨[], by simp, ?_, by simp⟩
      have : src = [] := List.eq_nil_of_length_eq_zero (by omega)
      rw [this]; rfl

theorem entsTotal_single (d : SEnt) (hd : d.2.length < 2 ^ 61) : entsTotal [d] = 32 + entA d ∧ entsTotal [d] < 2 ^ 62 := by
  have := alignRepr_bound d.2.length (by omega)
  unfold entsTotal entA
  simp only [List.length_singleton, List.map_cons, List.map_nil, List.sum_cons, List.sum_nil]
  omega

theorem grpLoop_spec (mx : Nat) (hmx : mx < 2 ^ 62) (key : Nat × Nat) (ds : List SEnt) : ∀ (src : List SEnt) (ret : List PComm),
    (∀ d ∈ ds, d.2.length < 2 ^ 61) → entsTotal src < 2 ^ 63 →
    (((mx < entsTotal src ∨ ∃ d ∈ ds, mx < 32 + entA d) ∧ grpLoop mx key ds (entsSize src) src ret = .throws) ∨
     (entsTotal src ≤ mx ∧ (∀ d ∈ ds, 32 + entA d ≤ mx) ∧ ∃ new, grpLoop mx key ds (entsSize src) src ret = .ok (ret ++ new) ∧
        new.flatMap PComm.src = src ++ ds ∧ ∀ c ∈ new, c.Ok mx key)) := by
  induction ds with
  | nil =>
    intro src ret _ h
    rcases addToRet_cases mx key src ret h with ⟨h1, h2⟩ | ⟨h1, new, h2, h3, h4⟩
    · exact Or.inl ⟨Or.inl h1, h2⟩
    · exact Or.inr ⟨h1, by simp, new, h2, by rw [h3, List.append_nil], h4⟩
  | cons d ds ih =>
    intro src ret hd h
    have hd1 := hd d List.mem_cons_self
    obtain ⟨e1, e2, e3⟩ := add_size src d hd1 h
    obtain ⟨s1, s2⟩ := entsTotal_single d hd1
    unfold grpLoop
    rw [e2]
    by_cases hc : entsTotal (src ++ [d]) > mx
    · rw [if_pos hc]
      rcases addToRet_cases mx key src ret h with ⟨h1, h2⟩ | ⟨h1, new, h2, h3, h4⟩
      · left
        exact ⟨Or.inl h1, by rw [h2]; rfl⟩
      · rw [h2]
        simp only [Res.bind]
        have e4 := (add_size [] d hd1 (by decide)).1
        rw [headSize_eq, e4]
        simp only [List.nil_append]
        rcases ih [d] (ret ++ new) (fun x hx => hd x (List.mem_cons_of_mem _ hx)) (by omega) with ⟨g1, g2⟩ | ⟨g1, g2, new', g3, g4, g5⟩
        · left
          refine ⟨Or.inr ?_, g2⟩
          rcases g1 with g1 | ⟨x, hx, g1⟩
          · exact ⟨d, List.mem_cons_self, by omega⟩
          · exact ⟨x, List.mem_cons_of_mem _ hx, g1⟩
        · right
          refine ⟨h1, ?_, new ++ new', by rw [g3, List.append_assoc], ?_, ?_⟩
          · intro x hx
            rcases List.mem_cons.1 hx with rfl | hx
            · omega
            · exact g2 x hx
          · rw [List.flatMap_append, h3, g4]; rfl
          · intro c hc'
            rcases List.mem_append.1 hc' with hc' | hc'
            · exact h4 c hc'
            · exact g5 c hc'
    · rw [if_neg hc, e1]
      rcases ih (src ++ [d]) ret (fun x hx => hd x (List.mem_cons_of_mem _ hx)) (by omega) with ⟨g1, g2⟩ | ⟨g1, g2, new, g3, g4, g5⟩
      · left
        refine ⟨Or.inr ?_, g2⟩
        rcases g1 with g1 | ⟨x, hx, g1⟩
        · omega
        · exact ⟨x, List.mem_cons_of_mem _ hx, g1⟩
      · right
        have : 8 ≤ entsTotal src := by unfold entsTotal; omega
        refine ⟨by omega, ?_, new, g3, ?_, g5⟩
        · intro x hx
          rcases List.mem_cons.1 hx with rfl | hx
          · omega
          · exact g2 x hx
        · rw [g4]; simp

theorem grpAll_spec (mx : Nat) (hmx : mx < 2 ^ 62) (h8 : 8 ≤ mx) (gs : List ((Nat × Nat) × List SEnt)) : ∀ (ret : List PComm),
    (∀ g ∈ gs, ∀ d ∈ g.2, d.2.length < 2 ^ 61) →
    (((∃ g ∈ gs, ∃ d ∈ g.2, mx < 32 + entA d) ∧ grpAll mx gs ret = .throws) ∨
     ((∀ g ∈ gs, ∀ d ∈ g.2, 32 + entA d ≤ mx) ∧ ∃ new, grpAll mx gs ret = .ok (ret ++ new) ∧
        new.flatMap PComm.src = gs.flatMap (·.2) ∧ ∀ c ∈ new, ∃ g ∈ gs, c.Ok mx g.1 ∧ ∀ e ∈ c.src, e ∈ g.2)) := by
  induction gs with
  | nil => intro ret _; exact Or.inr ⟨by simp, [], by simp [grpAll], rfl, by simp⟩
  | cons g gs ih =>
    intro ret hd
    unfold grpAll
    rw [headSize_eq]
    rcases grpLoop_spec mx hmx g.1 g.2 [] ret (fun d hd' => hd g List.mem_cons_self d hd') (by decide) with ⟨g1, g2⟩ | ⟨-, g2, new, g3, g4, g5⟩
    · left
      rw [g2]
      refine ⟨?_, rfl⟩
      rcases g1 with g1 | ⟨x, hx, g1⟩
      · have : entsTotal [] = 8 := rfl
        omega
      · exact ⟨g, List.mem_cons_self, x, hx, g1⟩
    · rw [g3]
      simp only [Res.bind]
      rcases ih (ret ++ new) (fun x hx => hd x (List.mem_cons_of_mem _ hx)) with ⟨⟨x, hx, k1⟩, k2⟩ | ⟨k1, new', k2, k3, k4⟩
      · exact Or.inl ⟨⟨x, List.mem_cons_of_mem _ hx, k1⟩, k2⟩
      · right
        refine ⟨?_, new ++ new', by rw [k2, List.append_assoc], ?_, ?_⟩
        · intro x hx d hd'
          rcases List.mem_cons.1 hx with rfl | hx
          · exact g2 d hd'
          · exact k1 x hx d hd'
        · rw [List.flatMap_append, g4, k3]; rfl
        · intro c hc
          rcases List.mem_append.1 hc with hc | hc
          · refine ⟨g, List.mem_cons_self, g5 c hc, fun e he => ?_⟩
            have : e ∈ new.flatMap PComm.src := List.mem_flatMap.2 ⟨c, hc, he⟩
            rw [g4, List.nil_append] at this
            exact this
          · obtain ⟨x, hx, k5⟩ := k4 c hc
            exact ⟨x, List.mem_cons_of_mem _ hx, k5⟩

/-- What the prepared messages of a rank are: well formed, together exactly the entries, each with the ranks of its entries. -/
theorem prepComms_spec (rk : Nat → Nat) (mx : Nat) (hmx : mx < 2 ^ 62) (h8 : 8 ≤ mx) (data : List SEnt) (hd : ∀ d ∈ data, d.2.length < 2 ^ 61) :
    ((∃ d ∈ data, mx < 32 + entA d) ∧ prepComms rk mx data = .throws) ∨
    ((∀ d ∈ data, 32 + entA d ≤ mx) ∧ ∃ cs, prepComms rk mx data = .ok cs ∧ ((cs.flatMap PComm.src).Perm data ∧ KeyEq (cs.flatMap PComm.src) data) ∧
      ∀ c ∈ cs, c.sz = entsSize c.src ∧ c.src ≠ [] ∧ entsTotal c.src ≤ mx ∧ ∀ e ∈ c.src, rk e.1.1 = c.sender ∧ rk e.1.2 = c.receiver) := by
  obtain ⟨p1, p2⟩ := groupByRank_spec rk data
  have hm : ∀ g ∈ groupByRank rk data, ∀ d ∈ g.2, d ∈ data := fun g hg d hd' => p1.subset (List.mem_flatMap.2 ⟨g, hg, hd'⟩)
  rcases grpAll_spec mx hmx h8 (groupByRank rk data) [] (fun g hg d hd' => hd d (hm g hg d hd')) with ⟨⟨g, hg, d, hd', h1⟩, h2⟩ | ⟨h1, new, h2, h3, h4⟩
  · exact Or.inl ⟨⟨d, hm g hg d hd', h1⟩, h2⟩
  · right
    refine ⟨fun d hd' => ?_, new, by simpa [prepComms] using h2, by rw [h3]; exact ⟨p1, groupByRank_keyEq rk data⟩, fun c hc => ?_⟩
    · obtain ⟨g, hg, hd2⟩ := List.mem_flatMap.1 (p1.symm.subset hd')
      exact h1 g hg d hd2
    · obtain ⟨g, hg, h5, h6⟩ := h4 c hc
      refine ⟨h5.sz, h5.ne, h5.le, fun e he => ?_⟩
      have := p2 g hg e (h6 e he)
      rw [h5.s, h5.r, ← this]
      exact ⟨rfl, rfl⟩

/-! ### Serialization -/

def entWrites (env : SerEnv) : Nat → List SEnt → List SWr
  | _, [] => []
  | i, e :: es => .val tyU64 (leBytes 8 e.1.1) :: .val tyU64 (leBytes 8 e.1.2) :: .val tyU64 (leBytes 8 e.2.length) ::
      .buf tyU8 (e.2.map fun b => [b]) e.2.length (env.wr i) :: entWrites env (i + 1) es

def entLoads (env : SerEnv) : Nat → List SEnt → List SLd
  | _, [] => []
  | i, e :: es => .val tyU64 :: .val tyU64 :: .val tyU64 ::
      .buf true tyU8 ((List.range e.2.length).map fun k => [env.dest k]) e.2.length (env.ld i) :: entLoads env (i + 1) es

theorem writeEnts_eq (env : SerEnv) (es : List SEnt) : ∀ i h, writeEnts env i es h = runW (entWrites env i es) h := by
  induction es with
  | nil => intro i h; rfl
  | cons e es ih =>
    intro i h
    simp only [writeEnts, entWrites, runW, SWr.run]
    show (h.writeVal tyU64 (leBytes 8 e.1.1) >>= fun h => h.writeVal tyU64 (leBytes 8 e.1.2) >>= fun h => h.writeVal tyU64 (leBytes 8 e.2.length) >>= fun h =>
      h.writeBuf tyU8 (e.2.map fun b => [b]) e.2.length (env.wr i) >>= fun h => writeEnts env (i + 1) es h) = _
    simp only [ih]

theorem runL_cons_inv (l : SLd) (ls : List SLd) (h : SerH) (v : List (List Byte)) (vs) (h3 : SerH)
    (e : runL (l :: ls) h = .ok (v :: vs, h3)) : ∃ h1, l.run h = .ok (v, h1) ∧ runL ls h1 = .ok (vs, h3) := by
  simp only [runL] at e
  cases h1 : l.run h with
  | throws => rw [h1] at e; simp at e
  | ub => rw [h1] at e; simp at e
  | ok a =>
    rw [h1] at e
    simp only [Res.ok_bind] at e
    cases h2 : runL ls a.2 with
    | throws => rw [h2] at e; simp at e
    | ub => rw [h2] at e; simp at e
    | ok b =>
      rw [h2] at e
      simp only [Res.ok_bind, Res.pure_eq, Res.ok.injEq, Prod.mk.injEq, List.cons.injEq] at e
      obtain ⟨⟨e1, e2⟩, e3⟩ := e
      exact ⟨a.2, by rw [← e1], by rw [h2, ← e2, ← e3]⟩

theorem runVal_inv (t : STy) (h h1 : SerH) (v : List Byte) (e : (SLd.val t).run h = .ok ([v], h1)) : h.loadVal t = .ok (v, h1) := by
  simp only [SLd.run] at e
  cases h2 : h.loadVal t with
  | throws => rw [h2] at e; simp at e
  | ub => rw [h2] at e; simp at e
  | ok a =>
    rw [h2] at e
    simp only [Res.ok_bind, Res.pure_eq, Res.ok.injEq, Prod.mk.injEq, List.cons.injEq, and_true] at e
    rw [← e.1, ← e.2]

theorem flatten_singletons (l : List Byte) : (l.map fun b => [b]).flatten = l := by
  induction l with
  | nil => rfl
  | cons a l ih => simp only [List.map_cons, List.flatten_cons, ih]; rfl

theorem loadEnts_eq (env env' : SerEnv) (rk : Nat → Nat) (real : Nat) (es : List SEnt) (hes : ∀ e ∈ es, rk e.1.1 = real ∧ e.1.1 < 2 ^ 64 ∧ e.1.2 < 2 ^ 64 ∧ e.2.length < 2 ^ 64) :
    ∀ i j h h3 acc, runL (entLoads env i es) h = .ok (List.zipWith SExpect (entWrites env' j es) (entLoads env i es), h3) →
      loadEnts env rk real es.length i h acc = .ok (es.foldl (fun acc e => ddsAddObj acc e.1.1 e.1.2 e.2) acc) := by
  induction es with
  | nil => intro i j h h3 acc _; rfl
  | cons e es ih =>
    intro i j h h3 acc hrun
    obtain ⟨b1, b2, b3, b4⟩ := hes e List.mem_cons_self
    simp only [entLoads, entWrites, List.zipWith_cons_cons] at hrun
    obtain ⟨h1, r1, hrun⟩ := runL_cons_inv _ _ _ _ _ _ hrun
    obtain ⟨h2, r2, hrun⟩ := runL_cons_inv _ _ _ _ _ _ hrun
    obtain ⟨h4, r3, hrun⟩ := runL_cons_inv _ _ _ _ _ _ hrun
    obtain ⟨h5, r4, hrun⟩ := runL_cons_inv _ _ _ _ _ _ hrun
    have q1 := runVal_inv _ _ _ _ r1
    have q2 := runVal_inv _ _ _ _ r2
    have q3 := runVal_inv _ _ _ _ r3
    simp only [SLd.run, SExpect] at r4
    have k1 : leVal (leBytes 8 e.1.1) = e.1.1 := leVal_leBytes 8 _ (by omega)
    have k2 : leVal (leBytes 8 e.1.2) = e.1.2 := leVal_leBytes 8 _ (by omega)
    have k3 : leVal (leBytes 8 e.2.length) = e.2.length := leVal_leBytes 8 _ (by omega)
    have k4 : List.take e.2.length (e.2.map fun b => [b]) ++ List.drop e.2.length ((List.range e.2.length).map fun k => [env.dest k]) = e.2.map fun b => [b] := by
      rw [List.drop_of_length_le (by simp), List.take_of_length_le (by simp), List.append_nil]
    rw [k4] at r4
    simp only [List.length_cons, loadEnts, q1, q2, q3, Res.bind, k1, k2, k3, b1, ne_eq, not_true, if_false, r4, flatten_singletons, List.foldl_cons]
    exact ih (fun x hx => hes x (List.mem_cons_of_mem _ hx)) (i + 1) (j + 1) h5 h3 _ hrun

theorem entWrites_legal (env : SerEnv) (es : List SEnt) : ∀ i, ∀ w ∈ entWrites env i es, w.Legal := by
  induction es with
  | nil => intro i w hw; simp [entWrites] at hw
  | cons e es ih =>
    intro i w hw
    have hv : ∀ v, (SWr.val tyU64 (leBytes 8 v)).Legal := fun v => ⟨by unfold STy.Ok; decide, by rw [leBytes_length]; rfl⟩
    simp only [entWrites, List.mem_cons] at hw
    rcases hw with rfl | rfl | rfl | rfl | hw
    · exact hv _
    · exact hv _
    · exact hv _
    · refine ⟨by unfold STy.Ok; decide, by simp, ?_⟩
      intro v hv
      obtain ⟨b, _, rfl⟩ := List.mem_map.1 hv
      rfl
    · exact ih _ w hw

theorem entLoads_match (env env' : SerEnv) (es : List SEnt) : ∀ i j, List.Forall₂ SMatch (entWrites env i es) (entLoads env' j es) := by
  induction es with
  | nil => intro i j; exact .nil
  | cons e es ih =>
    intro i j
    simp only [entWrites, entLoads]
    refine .cons rfl (.cons rfl (.cons rfl (.cons ⟨rfl, rfl, by simp⟩ (ih _ _))))

theorem entWrites_bytes (env : SerEnv) (es : List SEnt) : ∀ i, ((entWrites env i es).map SWr.bytes).sum = (es.map fun e => 56 + e.2.length).sum := by
  induction es with
  | nil => intro i; rfl
  | cons e es ih =>
    intro i
    have e1 : tyU64.sz = 8 := rfl
    have e2 : tyU8.sz = 1 := rfl
    simp only [entWrites, List.map_cons, List.sum_cons, ih, SWr.bytes, e1, e2]
    omega

theorem sum_len_le (es : List SEnt) (h : ∀ e ∈ es, e.2.length < 2 ^ 61) : (es.map fun e => 56 + e.2.length).sum ≤ 56 * es.length + (es.map entA).sum := by
  induction es with
  | nil => simp
  | cons e es ih =>
    have := ih (fun x hx => h x (List.mem_cons_of_mem _ hx))
    have hb := alignRepr_bound e.2.length (by have := h e List.mem_cons_self; omega)
    simp only [List.map_cons, List.sum_cons, List.length_cons]
    unfold entA at *
    omega

theorem entWrites_decl (env : SerEnv) (es : List SEnt) (h : ∀ e ∈ es, e.2.length < 2 ^ 61) (ht : 24 * es.length + (es.map entA).sum < 2 ^ 62) :
    ∀ i, declSum (entWrites env i es) = ⟨24 * es.length, (es.map entA).sum⟩ := by
  induction es with
  | nil => intro i; rfl
  | cons e es ih =>
    intro i
    have hl := h e List.mem_cons_self
    simp only [List.map_cons, List.sum_cons, List.length_cons] at ht
    have hr := ih (fun x hx => h x (List.mem_cons_of_mem _ hx)) (by omega) (i + 1)
    have hs : declSum (entWrites env i (e :: es)) = (byteSizeVal tyU64).add ((byteSizeVal tyU64).add ((byteSizeVal tyU64).add
        ((byteSizeBuf tyU8 e.2.length).add (declSum (entWrites env (i + 1) es))))) := rfl
    rw [hs, hr]
    have e1 : byteSizeVal tyU64 = ⟨8, 0⟩ := by decide
    have e2 : byteSizeBuf tyU8 e.2.length = ⟨0, entA e⟩ := by
      unfold byteSizeBuf entA
      rw [show tyU8.sz = 1 from rfl, Nat.mul_one, u64_small _ (by omega)]
    rw [e1, e2]
    unfold SSize.add
    simp only [List.map_cons, List.sum_cons, List.length_cons, SSize.mk.injEq]
    constructor
    · rw [u64_small (0 + _) (by omega), u64_small (8 + (0 + 24 * es.length)) (by omega), u64_small (8 + (8 + (0 + 24 * es.length))) (by omega), u64_small _ (by omega)]
      omega
    · rw [u64_small (entA e + _) (by omega), u64_small (0 + (entA e + (es.map entA).sum)) (by omega), u64_small (0 + (0 + (entA e + (es.map entA).sum))) (by omega), u64_small _ (by omega)]
      omega

/-- A well formed message of less than 2^32 bytes is serialized without error, with 8 bytes more than its declared size; reading it back, in any
memory and order, gives its entries. -/
theorem packComm_spec (env : SerEnv) (c : PComm) (hsz : c.sz = entsSize c.src) (hl : ∀ e ∈ c.src, e.2.length < 2 ^ 61) (ht : entsTotal c.src + 8 < 2 ^ 32) :
    ∃ bytes, packComm env c = .ok bytes ∧ bytes.length = entsTotal c.src + 8 ∧
      ∀ (env' : SerEnv) (rk : Nat → Nat) (acc : List SEnt), (∀ e ∈ c.src, rk e.1.1 = c.sender ∧ e.1.1 < 2 ^ 64 ∧ e.1.2 < 2 ^ 64) →
        unpackComm env' rk c.sender bytes acc = .ok (c.src.foldl (fun acc e => ddsAddObj acc e.1.1 e.1.2 e.2) acc) := by
  have hn : c.src.length < 2 ^ 32 := by unfold entsTotal at ht; omega
  have hA : 24 * c.src.length + (c.src.map entA).sum < 2 ^ 32 := by unfold entsTotal at ht; omega
  have hall : ∀ env' : SerEnv, ∃ h0 h1 bytes h2 h3, bytes.length = entsTotal c.src + 8 ∧ SerH.allocate c.sz false env.junk = .ok h0 ∧
      runW (.val tyU64 (leBytes 8 c.src.length) :: entWrites env 0 c.src) h0 = .ok h1 ∧ h1.finalize env.fin = .ok bytes ∧
      SerH.ofBuffer bytes false env'.ext = .ok h2 ∧ runL (.val tyU64 :: entLoads env' 0 c.src) h2 =
        .ok (List.zipWith SExpect (.val tyU64 (leBytes 8 c.src.length) :: entWrites env 0 c.src) (.val tyU64 :: entLoads env' 0 c.src), h3) := by
    intro env'
    have hd : declSum (.val tyU64 (leBytes 8 c.src.length) :: entWrites env 0 c.src) = entsSize c.src := by
      have := entWrites_decl env c.src hl (by omega) 0
      show (byteSizeVal tyU64).add (declSum (entWrites env 0 c.src)) = _
      rw [this, show byteSizeVal tyU64 = ⟨8, 0⟩ by decide]
      unfold SSize.add entsSize
      simp only [SSize.mk.injEq]
      rw [u64_small _ (by omega), u64_small _ (by omega)]
      constructor <;> omega
    have hb : ((SWr.val tyU64 (leBytes 8 c.src.length) :: entWrites env 0 c.src).map SWr.bytes).sum + 0 + 0 + 8 < 2 ^ 62 := by
      simp only [List.map_cons, List.sum_cons, entWrites_bytes]
      have := sum_len_le c.src hl
      have e1 : (SWr.val tyU64 (leBytes 8 c.src.length)).bytes = 16 := rfl
      rw [e1]; omega
    obtain ⟨h0, h1, bytes, h2, h3, a0, a1, a2, a3, a4, a5⟩ := serial_roundtrip (.val tyU64 (leBytes 8 c.src.length) :: entWrites env 0 c.src) (.val tyU64 :: entLoads env' 0 c.src) ⟨0, 0⟩ false env.junk env.fin env'.ext
      (by
        intro w hw
        rcases List.mem_cons.1 hw with rfl | hw
        · exact ⟨by unfold STy.Ok; decide, by rw [leBytes_length]; rfl⟩
        · exact entWrites_legal env _ _ w hw)
      (.cons rfl (entLoads_match _ _ _ _ _)) rfl hb
      (Or.inr (by rw [hd]; show 8 + 24 * c.src.length + (c.src.map entA).sum + 0 + 0 + 8 < 2 ^ 32; unfold entsTotal at ht; omega))
    rw [hd] at a0 a1
    have e2 : (entsSize c.src).add ⟨0, 0⟩ = c.sz := by
      rw [hsz]
      unfold SSize.add entsSize
      simp only [SSize.mk.injEq]
      rw [u64_small _ (by omega), u64_small _ (by omega)]
      constructor <;> omega
    rw [e2] at a1
    exact ⟨h0, h1, bytes, h2, h3, a0, a1, a2, a3, a4, a5⟩
  obtain ⟨h0, h1, bytes, h2, h3, a0, a1, a2, a3, a4, a5⟩ := hall env
  refine ⟨bytes, ?_, a0, ?_⟩
  · unfold packComm
    rw [a1]
    simp only [Res.bind]
    simp only [runW, SWr.run] at a2
    cases hw : h0.writeVal tyU64 (leBytes 8 c.src.length) with
    | throws => rw [hw] at a2; simp at a2
    | ub => rw [hw] at a2; simp at a2
    | ok h' =>
      rw [hw] at a2
      simp only [Res.ok_bind] at a2
      simp only [writeEnts_eq, a2]
      exact a3
  · intro env' rk acc he
    obtain ⟨g0, g1, bytes', g2, g3, b0, b1, b2, b3, b4, b5⟩ := hall env'
    rw [a1] at b1; cases b1
    rw [a2] at b2; cases b2
    rw [a3] at b3; cases b3
    unfold unpackComm
    rw [b4]
    simp only [List.zipWith_cons_cons] at b5
    obtain ⟨g4, r1, hrun⟩ := runL_cons_inv _ _ _ _ _ _ b5
    have q1 := runVal_inv _ _ _ _ r1
    simp only [Res.bind, q1, leVal_leBytes 8 c.src.length (by omega)]
    exact loadEnts_eq env' env rk c.sender c.src (fun e hx => ⟨(he e hx).1, (he e hx).2.1, (he e hx).2.2, by have := hl e hx; omega⟩) 0 0 g4 g3 acc hrun

end Shamrock
