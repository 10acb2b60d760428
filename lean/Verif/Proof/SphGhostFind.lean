import Verif.Proof.SphGhost
import Verif.Props.SerialTree
import Verif.Props.Containers
import Verif.Proof.Reattribute
/-! Proofs about `find_interfaces`. -/
namespace Shamrock

section
variable {F : Type}

/-- The boxes of the children of an inner node lie in its box. -/
def BoxNest [LE F] (box : PatchCoord → V3 F × V3 F) (t : PTree) : Prop :=
  ∀ x n, t.tree x = some n → n.isLeaf = false → ∀ ch ∈ getSplit n.coord,
    ((box n.coord).1.x ≤ (box ch).1.x ∧ (box n.coord).1.y ≤ (box ch).1.y ∧ (box n.coord).1.z ≤ (box ch).1.z) ∧
    ((box ch).2.x ≤ (box n.coord).2.x ∧ (box ch).2.y ≤ (box n.coord).2.y ∧ (box ch).2.z ≤ (box n.coord).2.z)

/-- The level of the entry `m`. -/
def entLevel (t : PTree) (K : List Nat) (m : Nat) : Nat := (((K[m]?).bind t.tree).map PTNode.level).getD 0

attribute [local irreducible] u64max getSplit

theorem SerOk.shape {box : PatchCoord → V3 F × V3 F} {t : PTree} (H : TInv t) (L : TLev t) {rs ids K : List Nat} {s : SSt F} (S : SerOk box t rs s ids K) :
    TreeShape s (entLevel t K) := by
  have hub := u64max_big
  refine ⟨by rw [S.links, S.nodes], fun i nd hn hc => ?_, fun i hi => ?_⟩
  · have hi : i < K.length := by rw [← S.nodes]; exact (List.getElem?_eq_some_iff.1 hn).1
    have hK : K[i]? = some K[i] := List.getElem?_eq_getElem hi
    obtain ⟨n, nd', a1, a2, a3, a4, a5, a6⟩ := S.ent i _ hK
    rw [hn, Option.some.injEq] at a2
    subst a2
    rcases a6 with ⟨-, b⟩ | ⟨b1, b2, b3⟩
    · exact absurd b hc
    · have h8 := (H.kids _ n a1 b1).1
      refine ⟨by rw [b2]; exact h8, fun c hcm => ?_⟩
      obtain ⟨k, hk⟩ := List.mem_iff_getElem?.1 hcm
      have hkl : k < n.childs.length := by rw [← b2]; exact (List.getElem?_eq_some_iff.1 hk).1
      have hch : n.childs[k]? = some n.childs[k] := List.getElem?_eq_getElem hkl
      obtain ⟨m', e1, e2⟩ := b3 k _ hch
      rw [hk, Option.some.injEq] at e1
      subst e1
      obtain ⟨kn, k1, k2, k3, k4⟩ := H.down _ n a1 b1 k _ hch
      refine ⟨by rw [S.nodes]; exact (List.getElem?_eq_some_iff.1 e2).1, ?_⟩
      have hp : kn.parent ≠ u64max := by
        intro h
        have := H.fresh _ _ a1
        have := H.bound
        rw [k2] at h
        omega
      have := L.level _ kn n k1 hp (by rw [k2]; exact a1)
      simp only [entLevel, e2, hK, Option.bind_some, k1, a1, Option.map_some, Option.getD_some]
      exact this
  · have hK : K[i]? = some (K[i]'(by rw [← S.nodes]; exact hi)) := List.getElem?_eq_getElem _
    obtain ⟨n, nd', a1, -⟩ := S.ent i _ hK
    simp only [entLevel, hK, Option.bind_some, a1, Option.map_some, Option.getD_some]
    exact S.lev _ n a1

variable [LinearOrder F]

theorem treeV_under [Zero F] {box : PatchCoord → V3 F × V3 F} {t : PTree} (H : TInv t) (L : TLev t) {rs ids K : List Nat} {s : SSt F} (S : SerOk box t rs s ids K)
    (rho : Nat → F) (hN : BoxNest box t) {z y : Nat} (h : Under t z y) : ∀ (m m' : Nat) (nd nd' : SNode F), K[m]? = some z → K[m']? = some y →
      s.nodes[m]? = some nd → s.nodes[m']? = some nd' →
      treeV s rho m' ≤ treeV s rho m ∧ (nd.lo.x ≤ nd'.lo.x ∧ nd.lo.y ≤ nd'.lo.y ∧ nd.lo.z ≤ nd'.lo.z) ∧
        (nd'.hi.x ≤ nd.hi.x ∧ nd'.hi.y ≤ nd.hi.y ∧ nd'.hi.z ≤ nd.hi.z) := by
  induction h with
  | refl =>
    intro m m' nd nd' h1 h2 h3 h4
    have := nodup_idx S.nodup h1 h2
    subst this
    rw [h3, Option.some.injEq] at h4
    subst h4
    exact ⟨le_refl _, ⟨le_refl _, le_refl _, le_refl _⟩, le_refl _, le_refl _, le_refl _⟩
  | @step x n q hx hp hq hmem hun ih =>
    intro m m' nd nd' h1 h2 h3 h4
    -- entry of the parent
    have hpK : n.parent ∈ K := (S.mem _).2 ⟨q, hp⟩
    obtain ⟨p, hpm⟩ := List.mem_iff_getElem?.1 hpK
    obtain ⟨q', pn, a1, a2, a3, a4, a5, a6⟩ := S.ent p _ hpm
    rw [hp, Option.some.injEq] at a1
    subst a1
    obtain ⟨i1, i2, i3⟩ := ih m p nd pn h1 hpm h3 a2
    obtain ⟨x', nd'', c1, c2, c3, c4, c5, c6⟩ := S.ent m' _ h2
    rw [hx, Option.some.injEq] at c1
    subst c1
    rw [h4, Option.some.injEq] at c2
    subst c2
    rcases a6 with ⟨b, -⟩ | ⟨b1, b2, b3⟩
    · rw [b] at hq; cases hq
    · obtain ⟨k, hk⟩ := List.mem_iff_getElem?.1 hmem
      obtain ⟨kn, k1, k2, k3, k4⟩ := H.down _ q hp hq k x hk
      rw [hx, Option.some.injEq] at k1
      subst k1
      obtain ⟨m2, e1, e2⟩ := b3 k x hk
      have := nodup_idx S.nodup e2 h2
      subst this
      have hin : Inner s p pn := by
        refine ⟨a2, fun hh => ?_⟩
        have h8 := (H.kids _ q hp hq).1
        obtain ⟨c, hc⟩ : ∃ c, q.childs[0]? = some c := ⟨_, List.getElem?_eq_getElem (by omega)⟩
        obtain ⟨m', e1, e2⟩ := b3 0 c hc
        rw [List.head?_eq_getElem?, e1, Option.some.injEq] at hh
        have := (List.getElem?_eq_some_iff.1 e2).1
        have := S.small
        have := u64max_big
        omega
      have T := S.shape H L
      have hle : treeV s rho m2 ≤ treeV s rho p := by
        rw [treeV_inner T rho p pn hin]
        refine le_max8 _ (by rw [List.length_map]; exact (T.kids p pn hin.1 hin.2).1) _ ?_
        exact List.mem_map_of_mem (f := treeV s rho) (List.mem_of_getElem? e1)
      obtain ⟨n1, n2⟩ := hN _ q hp hq _ (List.mem_of_getElem? k4)
      rw [a4, a5] at *
      rw [c4, c5]
      refine ⟨hle.trans i1, ⟨?_, ?_, ?_⟩, ?_, ?_, ?_⟩
      · exact i2.1.trans n1.1
      · exact i2.2.1.trans n1.2.1
      · exact i2.2.2.trans n1.2.2
      · exact n2.1.trans i3.1
      · exact n2.2.1.trans i3.2.1
      · exact n2.2.2.trans i3.2.2

/-- Monotonicity of the machine operations (rounding to nearest keeps the order). -/
structure MonoOps (F : Type) [LinearOrder F] [Add F] [Sub F] : Prop where
  add : ∀ a b c d : F, a ≤ b → c ≤ d → a + c ≤ b + d
  sub : ∀ a b c d : F, a ≤ b → c ≤ d → a - d ≤ b - c

/-- Specification: the expanded box of the receiver meets the shifted box of the sender. -/
def Touches [Add F] [Sub F] (bS bR : Box F) (r : F) (off : V3 F) : Bool := ((bR.expandAll r).intersect (bS.addOffset off)).isNotEmpty

theorem notEmpty_mono (a b c : Box F) (h1 : b.lower.x ≤ a.lower.x ∧ b.lower.y ≤ a.lower.y ∧ b.lower.z ≤ a.lower.z)
    (h2 : a.upper.x ≤ b.upper.x ∧ a.upper.y ≤ b.upper.y ∧ a.upper.z ≤ b.upper.z) (h : (a.intersect c).isNotEmpty = true) : (b.intersect c).isNotEmpty = true := by
  simp only [Box.isNotEmpty, Box.intersect, vecGeq, V3.vmax, V3.vmin, Bool.and_eq_true, decide_eq_true_eq, ge_iff_le] at h ⊢
  obtain ⟨⟨h3, h4⟩, h5⟩ := h
  refine ⟨⟨?_, ?_⟩, ?_⟩
  · exact (max_le_max h1.1 le_rfl).trans (h3.trans (min_le_min h2.1 le_rfl))
  · exact (max_le_max h1.2.1 le_rfl).trans (h4.trans (min_le_min h2.2.1 le_rfl))
  · exact (max_le_max h1.2.2 le_rfl).trans (h5.trans (min_le_min h2.2.2 le_rfl))

/-! ### Interleavings and multimaps -/

theorem interleaves_filter {α : Type} (p : α → Bool) {ls : List (List α)} {r : List α} (h : Interleaves ls r) :
    ls.Pairwise (fun l l' => (∀ x ∈ l, p x = false) ∨ ∀ x ∈ l', p x = false) → r.filter p = ls.flatten.filter p := by
  induction h with
  | done ls h =>
    intro _
    have : ls.flatten = [] := List.flatten_eq_nil_iff.2 h
    rw [this]
  | step pre post a l r h ih =>
    intro hp
    have hp' : (pre ++ l :: post).Pairwise (fun l l' => (∀ x ∈ l, p x = false) ∨ ∀ x ∈ l', p x = false) := by
      rw [List.pairwise_append, List.pairwise_cons] at hp ⊢
      obtain ⟨h1, ⟨h2, h3⟩, h4⟩ := hp
      refine ⟨h1, ⟨fun b hb => ?_, h3⟩, fun b hb c hc => ?_⟩
      · rcases h2 b hb with h | h
        · exact Or.inl fun x hx => h x (List.mem_cons_of_mem _ hx)
        · exact Or.inr h
      · rcases List.mem_cons.1 hc with rfl | hc
        · rcases h4 b hb _ List.mem_cons_self with h | h
          · exact Or.inl h
          · exact Or.inr fun x hx => h x (List.mem_cons_of_mem _ hx)
        · exact h4 b hb c (List.mem_cons_of_mem _ hc)
    have e := ih hp'
    rw [List.flatten_append, List.flatten_cons, List.filter_append] at e ⊢
    rw [List.filter_append] at e
    rw [List.cons_append, List.filter_cons, List.filter_cons]
    by_cases ha : p a = true
    · have hpre : pre.flatten.filter p = [] := by
        rw [List.filter_eq_nil_iff]
        intro x hx
        obtain ⟨b, hb, hxb⟩ := List.mem_flatten.1 hx
        rw [List.pairwise_append] at hp
        rcases hp.2.2 b hb _ List.mem_cons_self with h | h
        · simp [h x hxb]
        · rw [h a List.mem_cons_self] at ha; cases ha
      rw [if_pos ha, if_pos ha, e, hpre, List.filter_append]
      simp
    · rw [if_neg ha, if_neg ha, e, List.filter_append]

theorem foldl_emplace_ok {V : Type} : ∀ (l m : List ((Nat × Nat) × V)), MMOk m → MMOk (l.foldl mmEmplace m) ∧ KeyEq (l.foldl mmEmplace m) (m ++ l) := by
  intro l
  induction l with
  | nil => intro m h; exact ⟨h, by rw [List.append_nil]; exact KeyEq.refl _⟩
  | cons x l ih =>
    intro m h
    obtain ⟨a, b⟩ := ih (mmEmplace m x) (mmEmplace_ok m x h)
    refine ⟨a, b.trans ?_⟩
    have := (mmEmplace_keyEq m x h).append (KeyEq.refl l)
    rw [List.append_assoc] at this
    exact this

theorem sendersAll_ok {α : Type} : ∀ (l : List (Option (Res (List α)))) (ls : List (List α)), l = ls.map (fun x => some (.ok x)) → sendersAll l = some (.ok ls) := by
  intro l
  induction l with
  | nil => intro ls h; cases ls with
    | nil => rfl
    | cons _ _ => cases h
  | cons a l ih =>
    intro ls h
    cases ls with
    | nil => cases h
    | cons b ls =>
      rw [List.map_cons, List.cons.injEq] at h
      rw [h.1, sendersAll, ih ls h.2]
      rfl

end

/-! ### One sender -/

section
variable {F : Type} [LinearOrder F] [Add F] [Sub F] [Neg F]

theorem fm_one (rho : Nat → F) (sid : Nat) (sbox : Box F) (sh : Shift F) (R : Nat) : ∀ (O : List (Nat × SNode F)), (O.map (·.1)).Nodup →
    (∀ nd, (R, nd) ∈ O → (O.filterMap (foundOne rho sid sbox sh)).filter (fun e => decide (e.1 = (sid, R))) = (foundOne rho sid sbox sh (R, nd)).toList) ∧
    ((∀ nd, (R, nd) ∉ O) → (O.filterMap (foundOne rho sid sbox sh)).filter (fun e => decide (e.1 = (sid, R))) = []) := by
  intro O
  have hkey : ∀ o e, foundOne rho sid sbox sh o = some e → e.1 = (sid, o.1) := by
    intro o e h
    unfold foundOne at h
    split at h
    · cases h
    · rw [Option.some.injEq] at h; rw [← h]
  induction O with
  | nil => intro _; exact ⟨fun nd h => absurd h List.not_mem_nil, fun _ => rfl⟩
  | cons o O ih =>
    intro hn
    rw [List.map_cons, List.nodup_cons] at hn
    obtain ⟨i1, i2⟩ := ih hn.2
    have hcons : ((o :: O).filterMap (foundOne rho sid sbox sh)).filter (fun e => decide (e.1 = (sid, R))) =
        ((foundOne rho sid sbox sh o).toList.filter fun e => decide (e.1 = (sid, R))) ++ (O.filterMap (foundOne rho sid sbox sh)).filter (fun e => decide (e.1 = (sid, R))) := by
      rw [List.filterMap_cons]
      rcases h : foundOne rho sid sbox sh o with _ | e
      · rfl
      · dsimp only
        rw [List.filter_cons, Option.toList_some, List.filter_cons, List.filter_nil]
        split <;> rfl
    have hhead : o.1 ≠ R → ((foundOne rho sid sbox sh o).toList.filter fun e => decide (e.1 = (sid, R))) = [] := by
      intro hne
      rw [List.filter_eq_nil_iff]
      intro e he
      rw [Option.mem_toList] at he
      have := hkey o e he
      rw [this]
      simp [hne]
    rw [hcons]
    by_cases hR : o.1 = R
    · subst hR
      have hno : ∀ nd, (o.1, nd) ∉ O := fun nd h => hn.1 (List.mem_map.2 ⟨_, h, rfl⟩)
      refine ⟨fun nd hnd => ?_, fun h => absurd List.mem_cons_self (h o.2)⟩
      rcases List.mem_cons.1 hnd with h | h
      · rw [i2 hno, List.append_nil, h, List.filter_eq_self.2]
        intro e he
        rw [Option.mem_toList] at he
        have := hkey _ e he
        rw [this]; simp
      · exact absurd h (hno nd)
    · rw [hhead hR, List.nil_append]
      refine ⟨fun nd hnd => ?_, fun h => i2 fun nd hnd => h nd (List.mem_cons_of_mem _ hnd)⟩
      rcases List.mem_cons.1 hnd with h | h
      · exact absurd (by rw [← h]) hR
      · exact i1 nd h

variable [Zero F]

/-- The patch `R`, with box `b`, is linked to a leaf of the patch tree. -/
def LeafPatch (box : PatchCoord → V3 F × V3 F) (t : PTree) (R : Nat) (b : Box F) : Prop :=
  ∃ l n, t.tree l = some n ∧ n.isLeaf = true ∧ n.linked = R ∧ b = ⟨(box n.coord).1, (box n.coord).2⟩

/-- Leaves, and only leaves, are linked to a patch, to different ones. -/
structure LeafLinks (t : PTree) : Prop where
  leaf : ∀ x n, t.tree x = some n → (n.isLeaf = true ↔ n.linked ≠ u64max)
  inj : ∀ x y n m, t.tree x = some n → t.tree y = some m → n.isLeaf = true → m.isLeaf = true → n.linked = m.linked → x = y

/-- Specification: what one pair of patches and one shift contribute. -/
def pairEntry (rho : Nat → F) (bS bR : Box F) (S R : Nat) (sh : Shift F) : List ((Nat × Nat) × Interf F) :=
  if (S = R ∧ sh.1 = ⟨0, 0, 0⟩) ∨ Touches bS bR (rho R) sh.2 = false then []
  else [((S, R), ⟨sh.2, sh.1, bS.intersect ((bR.expandAll (rho R)).addOffset sh.2.negv)⟩)]

theorem senderHits_ok (M : MonoOps F) {box : PatchCoord → V3 F × V3 F} {t : PTree} (h : THist PTree.init t) (hN : BoxNest box t) (hL : LeafLinks t) {rs : List Nat}
    (hr : Enumerates rs t.roots) (hnd : rs.Nodup) {s : SSt F} {ids : List Nat} (hb : serBuild box t rs = .ok (s, ids)) (rho : Nat → F)
    (tf : List F) (htf : ∀ i < s.nodes.length, tf[i]? = some (treeV s rho i)) (sh : Shift F) (S : Nat) (bS : Box F) (hS : S ≠ u64max) :
    ∃ (N : Nat) (l : List ((Nat × Nat) × Interf F)), (∀ f, senderHits s ids tf rho (f + N) sh (S, bS) = some (.ok l)) ∧ (∀ e ∈ l, e.1.1 = S ∧ ∃ b, LeafPatch box t e.1.2 b) ∧
      ∀ R b, LeafPatch box t R b → l.filter (fun e => decide (e.1 = (S, R))) = pairEntry rho bS b S R sh := by
  have H := h.inv TInv.init
  have L := h.lev
  obtain ⟨s', ids', K0, e0, SO⟩ := serBuild_ok box t H L rs hr hnd
  rw [hb, Res.ok.injEq, Prod.mk.injEq] at e0
  obtain ⟨rfl, rfl⟩ := e0
  have T := SO.shape H L
  obtain ⟨N, O, X, c1, c2, c3, c4⟩ := Visits.many (t := t) (s := s) (K := K0) (cd := nodeHit tf (bS.addOffset sh.2)) ids.reverse rs.reverse
    (by
      rw [List.forall₂_reverse_iff]
      refine forall2_of_getElem _ _ SO.len fun k j r h1 h2 => ?_
      obtain ⟨m', e1, e2⟩ := SO.roots k r h2
      rw [h1, Option.some.injEq] at e1
      subst e1
      exact visits_one H SO _ hL.leaf _ j r (Nat.le_refl _) e2)
    (by
      rw [List.pairwise_reverse, List.pairwise_iff_getElem]
      intro i j hi hj hij y h1 h2
      have := Under.roots H ((hr _).1 (List.getElem_mem hi)) ((hr _).1 (List.getElem_mem hj)) h2 h1
      have := (hnd.getElem_inj_iff).1 this
      omega)
  -- the callback on a node of the tree
  have hhit : ∀ (m : Nat) (nd : SNode F), s.nodes[m]? = some nd → nodeHit tf (bS.addOffset sh.2) m nd = Touches bS ⟨nd.lo, nd.hi⟩ (treeV s rho m) sh.2 := by
    intro m nd hm
    unfold nodeHit
    rw [htf m (List.getElem?_eq_some_iff.1 hm).1]
    rfl
  have hleafV : ∀ (m : Nat) y n nd, K0[m]? = some y → t.tree y = some n → s.nodes[m]? = some nd → n.isLeaf = true → treeV s rho m = rho n.linked := by
    intro m y n nd h1 h2 h3 h4
    obtain ⟨n', nd', a1, a2, a3, a4, a5, a6⟩ := SO.ent m y h1
    rw [h2, Option.some.injEq] at a1
    subst a1
    rw [h3, Option.some.injEq] at a2
    subst a2
    rcases a6 with ⟨-, b⟩ | ⟨b, -⟩
    · exact treeV_leaf T rho m nd h3 (by simp [b]) _ a3
    · rw [h4] at b; cases b
  -- acceptance is inherited by the ancestors
  have hacc : ∀ y n, t.tree y = some n → n.isLeaf = true → (y ∈ X ↔ Touches bS ⟨(box n.coord).1, (box n.coord).2⟩ (rho n.linked) sh.2 = true) := by
    intro y n hy hl
    have hyK : y ∈ K0 := (SO.mem y).2 ⟨n, hy⟩
    obtain ⟨m, hm⟩ := List.mem_iff_getElem?.1 hyK
    obtain ⟨n', nd, a1, a2, a3, a4, a5, a6⟩ := SO.ent m y hm
    rw [hy, Option.some.injEq] at a1
    subst a1
    have hV := hleafV m y n nd hm hy a2 hl
    rw [c4]
    constructor
    · rintro ⟨x, hx, -, hu, hall⟩
      obtain ⟨m', nd', b1, b2, b3⟩ := hall y hu (Under.refl y)
      have := nodup_idx SO.nodup hm b1
      subst this
      rw [a2, Option.some.injEq] at b2
      subst b2
      rw [hhit m nd a2, hV, a4, a5] at b3
      exact b3
    · intro ht
      obtain ⟨r, hrr, hru⟩ := underRoot H _ y n (Nat.le_refl _) hy
      refine ⟨r, List.mem_reverse.2 ((hr r).2 hrr), ⟨n, hy, hl⟩, hru, fun z hz1 hz2 => ?_⟩
      obtain ⟨zn, hzn⟩ : ∃ zn, t.tree z = some zn := by
        have hroot := (H.root r).1 hrr
        cases hz1 with
        | refl => obtain ⟨n, hn, _⟩ := hroot; exact ⟨n, hn⟩
        | step b1 _ _ _ _ => exact ⟨_, b1⟩
      obtain ⟨mz, hmz⟩ := List.mem_iff_getElem?.1 ((SO.mem z).2 ⟨zn, hzn⟩)
      obtain ⟨zn', znd, z1, z2, z3, z4, z5, z6⟩ := SO.ent mz z hmz
      obtain ⟨u1, u2, u3⟩ := treeV_under H L SO rho hN hz2 mz m znd nd hmz hm z2 a2
      refine ⟨mz, znd, hmz, z2, ?_⟩
      rw [hhit mz znd z2]
      rw [← hV, ← a4, ← a5] at ht
      refine notEmpty_mono _ _ _ ?_ ?_ ht
      · exact ⟨M.sub _ _ _ _ u2.1 u1, M.sub _ _ _ _ u2.2.1 u1, M.sub _ _ _ _ u2.2.2 u1⟩
      · exact ⟨M.add _ _ _ _ u3.1 u1, M.add _ _ _ _ u3.2.1 u1, M.add _ _ _ _ u3.2.2 u1⟩
  have hOlink : ∀ o y, Reports t s K0 o y → ∃ n, t.tree y = some n ∧ o.1 = n.linked ∧ o.2.lo = (box n.coord).1 ∧ o.2.hi = (box n.coord).2 := by
    rintro o y ⟨m, nd, n, h1, h2, h3, rfl⟩
    obtain ⟨n', nd', a1, a2, a3, a4, a5, a6⟩ := SO.ent m y h1
    rw [h3, Option.some.injEq] at a1
    subst a1
    rw [h2, Option.some.injEq] at a2
    subst a2
    exact ⟨n, h3, rfl, a4, a5⟩
  have hXleaf : ∀ y ∈ X, ∃ n, t.tree y = some n ∧ n.isLeaf = true := by
    intro y hy
    obtain ⟨x, -, h2, -⟩ := (c4 y).1 hy
    exact h2
  have hOn : ∀ (O : List (Nat × SNode F)) (X : List Nat), List.Forall₂ (Reports t s K0) O X → X.Nodup → (∀ y ∈ X, ∃ n, t.tree y = some n ∧ n.isLeaf = true) →
      (O.map (·.1)).Nodup := by
    intro O X h
    induction h with
    | nil => intro _ _; exact List.nodup_nil
    | @cons o y O X h1 h2 ih =>
      intro hn hl
      rw [List.nodup_cons] at hn
      rw [List.map_cons, List.nodup_cons]
      refine ⟨fun hm => ?_, ih hn.2 fun y hy => hl y (List.mem_cons_of_mem _ hy)⟩
      obtain ⟨o', ho', he⟩ := List.mem_map.1 hm
      obtain ⟨y', hy', hrep⟩ := forall2_exists_left h2 _ ho'
      obtain ⟨n1, a1, a2, -⟩ := hOlink o y h1
      obtain ⟨n2, b1, b2, -⟩ := hOlink o' y' hrep
      obtain ⟨l1, d1, d2⟩ := hl y List.mem_cons_self
      obtain ⟨l2, d3, d4⟩ := hl y' (List.mem_cons_of_mem _ hy')
      rw [a1, Option.some.injEq] at d1
      subst d1
      rw [b1, Option.some.injEq] at d3
      subst d3
      have := hL.inj y y' n1 n2 a1 b1 d2 d4 (by rw [← a2, ← b2]; exact he.symm)
      subst this
      exact hn.1 hy'
  have hnod := hOn O X c2 c3 hXleaf
  refine ⟨N + 1, O.filterMap (foundOne rho S bS sh), fun f => ?_, fun e he => ?_, fun R b hR => ?_⟩
  · unfold senderHits
    rw [if_neg hS]
    have := c1 (f + 1) [] []
    rw [List.append_nil, List.nil_append] at this
    rw [show f + (N + 1) = f + 1 + N by omega, this]
    rfl
  · obtain ⟨o, ho, hf⟩ := List.mem_filterMap.1 he
    obtain ⟨y, hy, hrep⟩ := forall2_exists_left c2 _ ho
    obtain ⟨n, a1, a2, -⟩ := hOlink o y hrep
    obtain ⟨n', d1, d2⟩ := hXleaf y hy
    rw [a1, Option.some.injEq] at d1
    subst d1
    unfold foundOne at hf
    split at hf
    · cases hf
    · rw [Option.some.injEq] at hf
      rw [← hf]
      exact ⟨rfl, _, y, n, a1, d2, a2.symm, rfl⟩
  · obtain ⟨l, n, l1, l2, rfl, rfl⟩ := hR
    obtain ⟨f1, f2⟩ := fm_one rho S bS sh n.linked O hnod
    have hmem := hacc l n l1 l2
    unfold pairEntry
    by_cases ht : Touches bS ⟨(box n.coord).1, (box n.coord).2⟩ (rho n.linked) sh.2 = true
    · obtain ⟨o, ho, hrep⟩ := forall2_mem_right c2 _ (hmem.2 ht)
      obtain ⟨n', a1, a2, a3, a4⟩ := hOlink o l hrep
      rw [l1, Option.some.injEq] at a1
      subst a1
      obtain ⟨o1, o2⟩ := o
      dsimp only at a2 a3 a4
      subst a2
      rw [f1 o2 ho]
      unfold foundOne
      dsimp only
      rw [a3, a4]
      by_cases hz : S = n.linked ∧ sh.1 = ⟨0, 0, 0⟩
      · rw [if_pos ⟨hz.1.symm, hz.2⟩, if_pos (Or.inl hz)]; rfl
      · rw [if_neg (fun h => hz ⟨h.1.symm, h.2⟩), if_neg (fun h => by
          rcases h with h | h
          · exact hz h
          · rw [ht] at h; cases h)]
        rfl
    · have ht' : Touches bS ⟨(box n.coord).1, (box n.coord).2⟩ (rho n.linked) sh.2 = false := by simpa using ht
      rw [if_pos (Or.inr ht')]
      refine f2 fun nd hnd => ht ?_
      obtain ⟨y, hy, hrep⟩ := forall2_exists_left c2 _ hnd
      obtain ⟨n', a1, a2, -⟩ := hOlink _ y hrep
      obtain ⟨n2, d1, d2⟩ := hXleaf y hy
      rw [a1, Option.some.injEq] at d1
      subst d1
      have := hL.inj l y n n' l1 a1 l2 d2 a2
      subst this
      exact hmem.1 hy

/-- All senders, all shifts. -/
theorem findInterfaces_ok (M : MonoOps F) {box : PatchCoord → V3 F × V3 F} {t : PTree} (h : THist PTree.init t) (hN : BoxNest box t) (hL : LeafLinks t) {rs : List Nat}
    (hr : Enumerates rs t.roots) (hnd : rs.Nodup) {s : SSt F} {ids : List Nat} (hb : serBuild box t rs = .ok (s, ids)) (rho : Nat → F)
    (tf : List F) (htf : ∀ i < s.nodes.length, tf[i]? = some (treeV s rho i))
    (omp : Nat → List (List ((Nat × Nat) × Interf F)) → List ((Nat × Nat) × Interf F)) (homp : ∀ i ls, Interleaves ls (omp i ls))
    (locals : List (Nat × Box F)) (hloc : (locals.map (·.1)).Nodup) (hu : ∀ p ∈ locals, p.1 ≠ u64max) :
    ∀ (shs : List (Shift F)) (i : Nat) (m : List ((Nat × Nat) × Interf F)), MMOk m → ∃ (N : Nat) (m' add : List ((Nat × Nat) × Interf F)),
      (∀ f, findInterfaces s ids tf rho (f + N) omp locals i shs m = some (.ok m')) ∧ MMOk m' ∧ KeyEq m' (m ++ add) ∧
      (∀ e ∈ add, (∃ bS, (e.1.1, bS) ∈ locals) ∧ ∃ b, LeafPatch box t e.1.2 b) ∧
      ∀ S bS, (S, bS) ∈ locals → ∀ R b, LeafPatch box t R b → add.filter (fun e => decide (e.1 = (S, R))) = shs.flatMap (pairEntry rho bS b S R) := by
  intro shs
  induction shs with
  | nil => intro i m hm; exact ⟨0, m, [], fun _ => rfl, hm, by rw [List.append_nil]; exact KeyEq.refl _, fun e he => absurd he List.not_mem_nil, fun _ _ _ _ _ _ => rfl⟩
  | cons sh shs ih =>
    intro i m hm
    -- the iterations of the parallel loop
    have hit : ∀ l : List (Nat × Box F), (∀ p ∈ l, p.1 ≠ u64max) → ∃ (N : Nat) (ls : List (List ((Nat × Nat) × Interf F))),
        (∀ f, l.map (senderHits s ids tf rho (f + N) sh) = ls.map fun x => some (.ok x)) ∧
        List.Forall₂ (fun p x => (∀ e ∈ x, e.1.1 = p.1 ∧ ∃ b, LeafPatch box t e.1.2 b) ∧
          ∀ R b, LeafPatch box t R b → x.filter (fun e => decide (e.1 = (p.1, R))) = pairEntry rho p.2 b p.1 R sh) l ls := by
      intro l
      induction l with
      | nil => intro _; exact ⟨0, [], fun _ => rfl, List.Forall₂.nil⟩
      | cons p l ihl =>
        intro hp
        obtain ⟨N1, ls, a1, a2⟩ := ihl fun q hq => hp q (List.mem_cons_of_mem _ hq)
        obtain ⟨N2, x, b1, b2⟩ := senderHits_ok M h hN hL hr hnd hb rho tf htf sh p.1 p.2 (hp p List.mem_cons_self)
        refine ⟨N1 + N2, x :: ls, fun f => ?_, List.Forall₂.cons b2 a2⟩
        rw [List.map_cons, List.map_cons, show f + (N1 + N2) = (f + N2) + N1 by omega, a1 (f + N2), show f + N2 + N1 = f + N1 + N2 by omega, b1 (f + N1)]
    obtain ⟨N1, ls, a1, a2⟩ := hit locals hu
    obtain ⟨q1, q2⟩ := foldl_emplace_ok (omp i ls) m hm
    obtain ⟨N2, m', add, b1, b2, b3, b4, b5⟩ := ih (i + 1) _ q1
    -- at most one iteration has a given key
    have hpw : ∀ k : Nat × Nat, ls.Pairwise fun l l' => (∀ e ∈ l, decide (e.1 = k) = false) ∨ ∀ e ∈ l', decide (e.1 = k) = false := by
      intro k
      have gen : ∀ (l : List (Nat × Box F)) (ls : List (List ((Nat × Nat) × Interf F))), List.Forall₂ (fun p x => (∀ e ∈ x, e.1.1 = p.1 ∧ ∃ b, LeafPatch box t e.1.2 b) ∧
          ∀ R b, LeafPatch box t R b → x.filter (fun e => decide (e.1 = (p.1, R))) = pairEntry rho p.2 b p.1 R sh) l ls → (l.map (·.1)).Nodup →
          ls.Pairwise fun l l' => (∀ e ∈ l, decide (e.1 = k) = false) ∨ ∀ e ∈ l', decide (e.1 = k) = false := by
        intro l ls hf
        induction hf with
        | nil => intro _; exact List.Pairwise.nil
        | @cons p x l ls h1 h2 ih =>
          intro hn
          rw [List.map_cons, List.nodup_cons] at hn
          refine List.pairwise_cons.2 ⟨fun y hy => ?_, ih hn.2⟩
          obtain ⟨p', hp', hy1, -⟩ := forall2_mem_right h2 _ hy
          by_cases hk : k.1 = p.1
          · right
            intro e he
            simp only [decide_eq_false_iff_not]
            intro hek
            refine hn.1 (List.mem_map.2 ⟨p', hp', ?_⟩)
            rw [← (hy1 e he).1, hek, hk]
          · left
            intro e he
            simp only [decide_eq_false_iff_not]
            intro hek
            exact hk (by rw [← hek]; exact (h1.1 e he).1)
      exact gen locals ls a2 hloc
    have hflat : ∀ S bS, (S, bS) ∈ locals → ∀ R b, LeafPatch box t R b → ls.flatten.filter (fun e => decide (e.1 = (S, R))) = pairEntry rho bS b S R sh := by
      intro S bS hS R b hR
      have gen : ∀ (l : List (Nat × Box F)) (ls : List (List ((Nat × Nat) × Interf F))), List.Forall₂ (fun p x => (∀ e ∈ x, e.1.1 = p.1 ∧ ∃ b, LeafPatch box t e.1.2 b) ∧
          ∀ R b, LeafPatch box t R b → x.filter (fun e => decide (e.1 = (p.1, R))) = pairEntry rho p.2 b p.1 R sh) l ls → (l.map (·.1)).Nodup →
          ((S, bS) ∈ l → ls.flatten.filter (fun e => decide (e.1 = (S, R))) = pairEntry rho bS b S R sh) ∧
          (S ∉ l.map (·.1) → ls.flatten.filter (fun e => decide (e.1 = (S, R))) = []) := by
        intro l ls hf
        induction hf with
        | nil => intro _; exact ⟨fun h => absurd h List.not_mem_nil, fun _ => rfl⟩
        | @cons p x l ls h1 h2 ih =>
          intro hn
          rw [List.map_cons, List.nodup_cons] at hn
          obtain ⟨i1, i2⟩ := ih hn.2
          rw [List.flatten_cons, List.filter_append]
          have hx : p.1 ≠ S → x.filter (fun e => decide (e.1 = (S, R))) = [] := by
            intro hne
            rw [List.filter_eq_nil_iff]
            intro e he hk
            simp only [decide_eq_true_eq] at hk
            exact hne (by rw [← (h1.1 e he).1, hk])
          refine ⟨fun hm => ?_, fun hm => ?_⟩
          · rcases List.mem_cons.1 hm with hm | hm
            · subst hm
              rw [i2 hn.1, List.append_nil]
              exact h1.2 R b hR
            · rw [hx (fun h => hn.1 (by rw [h]; exact List.mem_map_of_mem (f := fun x : Nat × Box F => x.1) hm)), List.nil_append]
              exact i1 hm
          · rw [List.map_cons, List.mem_cons, not_or] at hm
            rw [hx (fun h => hm.1 h.symm), i2 hm.2]; rfl
      exact (gen locals ls a2 hloc).1 hS
    refine ⟨N1 + N2, m', ls.flatten ++ add, fun f => ?_, b2, ?_, ?_, ?_⟩
    · rw [findInterfaces, show f + (N1 + N2) = (f + N2) + N1 by omega, a1 (f + N2), sendersAll_ok _ ls rfl]
      dsimp only
      rw [show f + N2 + N1 = f + N1 + N2 by omega]
      exact b1 (f + N1)
    · have h1 : KeyEq (omp i ls) ls.flatten := fun k => interleaves_filter _ (homp i ls) (hpw k)
      have := b3.trans ((q2.trans ((KeyEq.refl m).append h1)).append (KeyEq.refl add))
      rw [List.append_assoc] at this
      exact this
    · intro e he
      rcases List.mem_append.1 he with he | he
      · obtain ⟨x, hx, hex⟩ := List.mem_flatten.1 he
        obtain ⟨p, hp, h1, -⟩ := forall2_mem_right a2 _ hx
        obtain ⟨c1, c2⟩ := h1 e hex
        exact ⟨⟨p.2, by rw [c1]; exact hp⟩, c2⟩
      · exact b4 e he
    · intro S bS hS R b hR
      rw [List.filter_append, hflat S bS hS R b hR, b5 S bS hS R b hR, List.flatMap_cons]

end
end Shamrock
