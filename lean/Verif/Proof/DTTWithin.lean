import Verif.Proof.DTTSelect
import Verif.Proof.BVHCell
/-! Comparing boxes finds the ancestors, in trees of points. -/
namespace Shamrock

theorem nested_or_disjoint : ∀ (T : KTree), T.leaves.Nodup → ∀ S ∈ T.subtrees, ∀ R ∈ T.subtrees,
    R ∈ S.subtrees ∨ S ∈ R.subtrees ∨ ∀ k ∈ S.leaves, k ∉ R.leaves := by
  intro T
  induction T with
  | leaf k =>
    intro _ S hS R hR
    simp only [KTree.subtrees, List.mem_singleton] at hS hR
    subst hS hR; left; exact self_mem_subtrees _
  | node i l r ihl ihr =>
    intro hnd S hS R hR
    have hnd' := List.nodup_append.1 (show (l.leaves ++ r.leaves).Nodup from hnd)
    have hsub : ∀ X Y : KTree, Y ∈ X.subtrees → ∀ k ∈ Y.leaves, k ∈ X.leaves := fun X Y h k hk =>
      (leaves_subtrees X k).1 (subtrees_trans X Y _ h ((leaves_subtrees Y k).2 hk))
    have hS' := hS
    have hR' := hR
    simp only [KTree.subtrees, List.mem_cons, List.mem_append] at hS' hR'
    rcases hS' with rfl | hS1 | hS1
    · left; exact hR
    · rcases hR' with rfl | hR1 | hR1
      · right; left; exact hS
      · exact ihl hnd'.1 S hS1 R hR1
      · right; right
        intro k hk hk'
        exact hnd'.2.2 k (hsub l S hS1 k hk) k (hsub r R hR1 k hk') rfl
    · rcases hR' with rfl | hR1 | hR1
      · right; left; exact hS
      · right; right
        intro k hk hk'
        exact hnd'.2.2 k (hsub l R hR1 k hk') k (hsub r S hS1 k hk) rfl
      · exact ihr hnd'.2.1 S hS1 R hR1

section
variable {F : Type} [LinearOrder F]

theorem isBox_mono {P Q : Nat → V3 F} {A B : List Nat} {a b a' b' : V3 F} (h : ∀ o ∈ A, o ∈ B) (hA : IsBox P Q A a b) (hB : IsBox P Q B a' b') :
    BoxIn a b a' b' := by
  obtain ⟨⟨⟨_, ix, mx, ex⟩, ⟨_, iy, my, ey⟩, ⟨_, iz, mz, ez⟩⟩, ⟨⟨_, jx, nx, fx⟩, ⟨_, jy, ny, fy⟩, ⟨_, jz, nz, fz⟩⟩⟩ := hA
  obtain ⟨⟨⟨p1, _⟩, ⟨p2, _⟩, ⟨p3, _⟩⟩, ⟨⟨q1, _⟩, ⟨q2, _⟩, ⟨q3, _⟩⟩⟩ := hB
  refine ⟨⟨?_, ?_, ?_⟩, ⟨?_, ?_, ?_⟩⟩
  · rw [← ex]; exact p1 ix (h ix mx)
  · rw [← ey]; exact p2 iy (h iy my)
  · rw [← ez]; exact p3 iz (h iz mz)
  · rw [← fx]; exact q1 jx (h jx nx)
  · rw [← fy]; exact q2 jy (h jy ny)
  · rw [← fz]; exact q3 jz (h jz nz)

theorem aabbContains_iff (c o : V3 F × V3 F) : aabbContains c o = true ↔ BoxIn o.1 o.2 c.1 c.2 := by
  unfold aabbContains BoxIn
  simp [Bool.and_eq_true, and_assoc]

theorem boxIn_trans {p q a b c d : V3 F} (h1 : BoxIn p q a b) (h2 : BoxIn a b c d) : BoxIn p q c d := by
  obtain ⟨⟨a1, a2, a3⟩, ⟨a4, a5, a6⟩⟩ := h1
  obtain ⟨⟨b1, b2, b3⟩, ⟨b4, b5, b6⟩⟩ := h2
  exact ⟨⟨b1.trans a1, b2.trans a2, b3.trans a3⟩, ⟨a4.trans b4, a5.trans b5, a6.trans b6⟩⟩

/-- The box of some points contains each of them. -/
theorem isBox_point {P : Nat → V3 F} {A : List Nat} {a b : V3 F} (hA : IsBox P P A a b) (o : Nat) (ho : o ∈ A) : BoxIn (P o) (P o) a b := by
  obtain ⟨⟨⟨p1, _⟩, ⟨p2, _⟩, ⟨p3, _⟩⟩, ⟨⟨q1, _⟩, ⟨q2, _⟩, ⟨q3, _⟩⟩⟩ := hA
  exact ⟨⟨p1 o ho, p2 o ho, p3 o ho⟩, ⟨q1 o ho, q2 o ho, q3 o ho⟩⟩

variable {w : Nat} {A : GridArith F} {C : MCode w} {env : BVHEnv F} {big small : F} {pmin : List (V3 F)}
  {P : Nat → V3 F} {objCnt : BitVec 32} {lo hi : V3 F} {t : BVH F} {T : KTree} {st : Nat → Nat} {bx : KTree → V3 F × V3 F}

theorem cellObjs_ne (K : StructOk objCnt.toNat (3 * C.bits) (fun i => (mortonOf A C lo hi (P i)).getD 0#w) t.sortMap t.redMap t.nodes T st)
    (S : KTree) (hS : S ∈ T.subtrees) : ∃ o, o ∈ cellObjs t.sortMap st S := by
  obtain ⟨k, hk⟩ := List.exists_mem_of_ne_nil _ (leaves_ne S)
  exact ⟨_, List.mem_flatMap.2 ⟨k, hk, first_mem K k (subtree_leaf_le K S hS k hk)⟩⟩

theorem disjoint_objs (K : StructOk objCnt.toNat (3 * C.bits) (fun i => (mortonOf A C lo hi (P i)).getD 0#w) t.sortMap t.redMap t.nodes T st)
    (S R : KTree) (hS : S ∈ T.subtrees) (hR : R ∈ T.subtrees) (h : ∀ k ∈ S.leaves, k ∉ R.leaves) (o : Nat) (ho : o ∈ cellObjs t.sortMap st S) :
    o ∉ cellObjs t.sortMap st R := by
  intro ho'
  obtain ⟨k, hk, h1⟩ := List.mem_flatMap.1 ho
  obtain ⟨k', hk', h2⟩ := List.mem_flatMap.1 ho'
  have := leafObjs_inj K o k k' (subtree_leaf_le K S hS k hk) (subtree_leaf_le K R hR k' hk') h1 h2
  subst this
  exact h k hk hk'

theorem sub_objs (S R : KTree) (h : R ∈ S.subtrees) (sortMap : List Nat) (st : Nat → Nat) : ∀ o ∈ cellObjs sortMap st R, o ∈ cellObjs sortMap st S := by
  intro o ho
  obtain ⟨k, hk, h1⟩ := List.mem_flatMap.1 ho
  exact List.mem_flatMap.2 ⟨k, (leaves_subtrees S k).1 (subtrees_trans S R _ h ((leaves_subtrees R k).2 hk)), h1⟩

theorem within_ok (H : BVHIn A C env big small pmin pmin P P objCnt lo hi)
    (K : StructOk objCnt.toNat (3 * C.bits) (fun i => (mortonOf A C lo hi (P i)).getD 0#w) t.sortMap t.redMap t.nodes T st)
    (D : DTTIn t T bx) (hbx : ∀ S ∈ T.subtrees, IsBox P P (cellObjs t.sortMap st S) (bx S).1 (bx S).2) (i : Nat)
    (hi' : i < 2 * t.nodes.length + 1) : WithinOk t T i := by
  intro S hS
  obtain ⟨I, hI, rfl⟩ := (whole_cells D.whole i).1 hi'
  unfold withinNode
  rw [D.box I hI, D.box S hS]
  simp only [Option.bind_eq_bind, Option.bind_some]
  show some _ = some _
  congr 1
  rw [Bool.eq_iff_iff, aabbContains_iff, decide_eq_true_eq]
  have hnd : T.leaves.Nodup := by rw [whole_leaves D.whole]; exact List.nodup_range
  constructor
  · intro hin
    obtain ⟨o, ho⟩ := cellObjs_ne K I hI
    have hp := isBox_point (hbx I hI) o ho
    rcases nested_or_disjoint T hnd S hS I hI with h | h | h
    · exact List.mem_map.2 ⟨I, h, rfl⟩
    · by_cases hSI : S = I
      · subst hSI; exact self_cells _ _
      · exfalso
        -- `S` is below a child of `I`; the other child would lie in the box of the first
        have hchild : ∃ c l r X Y, I = .node c l r ∧ X ∈ I.subtrees ∧ Y ∈ I.subtrees ∧ S ∈ X.subtrees ∧ (∀ k ∈ X.leaves, k ∉ Y.leaves) := by
          have hIl : I.leaves.Nodup := by
            rcases subtree_leaves D.whole I hI with ⟨k, hk⟩ | ⟨j, l', r', nd, _, _, _, e, _⟩
            · rw [hk]; simp [KTree.leaves]
            · rw [e]; exact List.nodup_range'
          cases hIc : I with
          | leaf k => rw [hIc] at h; simp only [KTree.subtrees, List.mem_singleton] at h; exact absurd (h.trans hIc.symm) hSI
          | node c l r =>
            rw [hIc] at hIl h
            have hd := (List.nodup_append.1 (show (l.leaves ++ r.leaves).Nodup from hIl)).2.2
            simp only [KTree.subtrees, List.mem_cons, List.mem_append] at h
            rcases h with h | h | h
            · exact absurd (h.trans hIc.symm) hSI
            · exact ⟨c, l, r, l, r, rfl, by simp [KTree.subtrees, self_mem_subtrees], by simp [KTree.subtrees, self_mem_subtrees], h,
                fun k hk hk' => hd k hk k hk' rfl⟩
            · exact ⟨c, l, r, r, l, rfl, by simp [KTree.subtrees, self_mem_subtrees], by simp [KTree.subtrees, self_mem_subtrees], h,
                fun k hk hk' => hd k hk' k hk rfl⟩
        obtain ⟨c, l, r, X, Y, _, hX, hY, hSX, hdis⟩ := hchild
        have hXT := subtrees_trans T I X hI hX
        have hYT := subtrees_trans T I Y hI hY
        obtain ⟨y, hy⟩ := cellObjs_ne K Y hYT
        have y1 := isBox_point (hbx Y hYT) y hy
        have y2 := boxIn_trans (boxIn_trans (boxIn_trans y1 (isBox_mono (sub_objs I Y hY t.sortMap st) (hbx Y hYT) (hbx I hI))) hin)
          (isBox_mono (sub_objs X S hSX t.sortMap st) (hbx S hS) (hbx X hXT))
        rcases cells_nested H K X Y hXT hYT _ _ _ _ _ (hbx X hXT) (hbx Y hYT) y2 y1 with h' | h'
        · obtain ⟨x, hx⟩ := cellObjs_ne K X hXT
          exact disjoint_objs K X Y hXT hYT hdis x hx (h' x hx)
        · exact disjoint_objs K X Y hXT hYT hdis y (h' y hy) hy
    · exfalso
      rcases cells_nested H K S I hS hI _ _ _ _ _ (hbx S hS) (hbx I hI) (boxIn_trans hp hin) hp with h' | h'
      · obtain ⟨s, hs⟩ := cellObjs_ne K S hS
        exact disjoint_objs K S I hS hI h s hs (h' s hs)
      · exact disjoint_objs K S I hS hI h o (h' o ho) ho
  · intro hmem
    obtain ⟨I', hI', he⟩ := List.mem_map.1 hmem
    have hII : I' = I := List.inj_on_of_nodup_map (whole_cells_nodup D.whole) (subtrees_trans T S I' hS hI') hI he
    subst hII
    exact isBox_mono (sub_objs S I' hI' t.sortMap st) (hbx I' hI) (hbx S hS)

end
end Shamrock
