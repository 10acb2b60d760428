import Verif.Proof.SphField
import Verif.Props.NeighCache
/-! The merged particles as images of all particles, and the sums of the forces. -/
namespace Shamrock.Sph

section
variable {F : Type} [Field F] [LinearOrder F] [IsStrictOrderedRing F]

open Classical in
theorem ghostIdx_exact (rho : Nat → F) (bS bR : Box F) (S R : Nat) (ps : List (V3 F × F)) (sh : Shift F) (hin : ∀ p ∈ ps, InHalfOpen bS.lower bS.upper p.1) :
    ghostIdx rho bS bR S R ps sh = if S = R ∧ sh.1 = ⟨0, 0, 0⟩ then [] else selIdx (fun p : V3 F × F => decide (InReach bR (rho R) (p.1.addv sh.2))) ps := by
  unfold ghostIdx
  have key : ∀ p ∈ ps, (inPatchConverted p.1 (bS.intersect ((bR.expandAll (rho R)).addOffset sh.2.negv)).lower
      (bS.intersect ((bR.expandAll (rho R)).addOffset sh.2.negv)).upper = true ↔ InReach bR (rho R) (p.1.addv sh.2)) := by
    intro p hp
    obtain ⟨⟨x1, x2⟩, ⟨y1, y2⟩, z1, z2⟩ := hin p hp
    rw [inPatchConverted_iff]
    have ax := cut_axis _ _ bR.lower.x bR.upper.x (rho R) sh.2.x _ x1 x2
    have ay := cut_axis _ _ bR.lower.y bR.upper.y (rho R) sh.2.y _ y1 y2
    have az := cut_axis _ _ bR.lower.z bR.upper.z (rho R) sh.2.z _ z1 z2
    exact and_congr ax (and_congr ay az)
  have sel : ∀ q : V3 F × F → Bool, (∀ p ∈ ps, q p = decide (InReach bR (rho R) (p.1.addv sh.2))) → selIdx q ps = selIdx (fun p : V3 F × F => decide (InReach bR (rho R) (p.1.addv sh.2))) ps := by
    intro q hq
    unfold selIdx
    refine List.filter_congr fun i hi => ?_
    rw [List.mem_range] at hi
    rw [List.getElem?_eq_getElem hi]
    exact hq _ (List.getElem_mem hi)
  by_cases hz : S = R ∧ sh.1 = ⟨0, 0, 0⟩
  · rw [if_pos (Or.inl hz), if_pos hz]
  · rw [if_neg hz]
    by_cases ht : Touches bS bR (rho R) sh.2 = false
    · rw [if_pos (Or.inr ht)]
      symm
      rw [List.eq_nil_iff_forall_not_mem]
      intro i hi
      obtain ⟨p, hp, hh⟩ := (mem_selIdx _ _ _).1 hi
      rw [decide_eq_true_eq] at hh
      obtain ⟨⟨x1, x2⟩, ⟨y1, y2⟩, z1, z2⟩ := hin p (List.mem_of_getElem? hp)
      obtain ⟨⟨a1, a2⟩, ⟨b1, b2⟩, c1, c2⟩ := hh
      have : Touches bS bR (rho R) sh.2 = true := by
        simp only [Touches, Box.isNotEmpty, Box.intersect, Box.expandAll, Box.addOffset, vecGeq, V3.vmax, V3.vmin, V3.subs, V3.adds, V3.addv, Bool.and_eq_true, decide_eq_true_eq, ge_iff_le]
        exact ⟨⟨touch_axis _ _ _ _ _ _ _ x1 x2 a1 a2, touch_axis _ _ _ _ _ _ _ y1 y2 b1 b2⟩, touch_axis _ _ _ _ _ _ _ z1 z2 c1 c2⟩
      rw [this] at ht
      cases ht
    · rw [if_neg (by rintro (h | h); exacts [hz h, ht h])]
      refine sel _ fun p hp => ?_
      rw [Bool.eq_iff_iff, key p hp, decide_eq_true_eq]

/-- Specification: `q` is the particle number `i` of patch `S`, moved by the shift. -/
def IsGas (gasOf : Nat → List (Gas F)) (speed : V3 Int → V3 F) (l : Nat × Nat × Shift F) (q : Gas F) : Prop :=
  ∃ p, (gasOf l.1)[l.2.1]? = some p ∧ q = p.moved l.2.2.2 (speed l.2.2.1)

open Classical in
theorem gas_images (rho : Nat → F) (pbox : Nat → Box F) (gasOf : Nat → List (Gas F)) (speed : V3 Int → V3 F) (hsp : speed ⟨0, 0, 0⟩ = ⟨0, 0, 0⟩) (shs : List (Shift F)) (ss : List Nat)
    (I : ImagesOk rho pbox (posOf gasOf) shs ss) (R : Nat) (hR : R ∈ ss) :
    ∃ labels : List (Nat × Nat × Shift F), labels.Nodup ∧ List.Forall₂ (IsGas gasOf speed) labels (mergedGas rho pbox gasOf speed shs ss R) ∧
      ∀ (S i : Nat) (sh : Shift F), (S, i, sh) ∈ labels ↔ S ∈ ss ∧ sh ∈ shs ∧ ∃ p, (posOf gasOf S)[i]? = some p ∧ InReach (pbox R) (rho R) (p.1.addv sh.2) := by
  have hshn : shs.Nodup := List.Nodup.of_map _ I.shifts
  let lab : Nat → Shift F → List (Nat × Nat × Shift F) := fun S sh =>
    if S = R ∧ sh.1 = ⟨0, 0, 0⟩ then [] else (selIdx (fun p : V3 F × F => decide (InReach (pbox R) (rho R) (p.1.addv sh.2))) ((posOf gasOf) S)).map fun i => (S, i, sh)
  have hlab : ∀ S sh l, l ∈ lab S sh ↔ ¬ (S = R ∧ sh.1 = ⟨0, 0, 0⟩) ∧ ∃ i, l = (S, i, sh) ∧ ∃ p, ((posOf gasOf) S)[i]? = some p ∧ InReach (pbox R) (rho R) (p.1.addv sh.2) := by
    intro S sh l
    show l ∈ (if S = R ∧ sh.1 = ⟨0, 0, 0⟩ then [] else _) ↔ _
    split
    · rename_i hz
      exact ⟨fun h => absurd h List.not_mem_nil, fun h => absurd hz h.1⟩
    · rename_i hz
      rw [List.mem_map]
      constructor
      · rintro ⟨i, hi, rfl⟩
        obtain ⟨p, h1, h2⟩ := (mem_selIdx _ _ _).1 hi
        exact ⟨hz, i, rfl, p, h1, by simpa using h2⟩
      · rintro ⟨-, i, rfl, p, h1, h2⟩
        exact ⟨i, (mem_selIdx _ _ _).2 ⟨p, h1, by simpa using h2⟩, rfl⟩
  have hlabn : ∀ S sh, (lab S sh).Nodup := by
    intro S sh
    show (if S = R ∧ sh.1 = ⟨0, 0, 0⟩ then [] else _ : List _).Nodup
    split
    · exact List.nodup_nil
    · refine List.Nodup.map (fun a b h => ?_) (List.Nodup.filter _ List.nodup_range)
      simpa using h
  have hlabI : ∀ S ∈ ss, ∀ sh, List.Forall₂ (IsGas gasOf speed) (lab S sh) ((ghostIdx rho (pbox S) (pbox R) S R ((posOf gasOf) S) sh).filterMap fun i => gasImage gasOf speed (S, i, sh)) := by
    intro S hS sh
    rw [ghostIdx_exact rho (pbox S) (pbox R) S R (posOf gasOf S) sh (I.inside S hS)]
    show List.Forall₂ _ (if S = R ∧ sh.1 = ⟨0, 0, 0⟩ then [] else _) _
    split
    · exact List.Forall₂.nil
    · rw [List.forall₂_map_left_iff]
      have hlt := selIdx_lt (fun p : V3 F × F => decide (InReach (pbox R) (rho R) (p.1.addv sh.2))) (posOf gasOf S)
      generalize selIdx (fun p : V3 F × F => decide (InReach (pbox R) (rho R) (p.1.addv sh.2))) (posOf gasOf S) = ix at hlt ⊢
      induction ix with
      | nil => exact List.Forall₂.nil
      | cons i ix ih =>
        have h1 := hlt i List.mem_cons_self
        rw [posOf, List.length_map] at h1
        rw [List.filterMap_cons]
        have e : gasImage gasOf speed (S, i, sh) = some (((gasOf S)[i]).moved sh.2 (speed sh.1)) := by
          unfold gasImage
          dsimp only
          rw [List.getElem?_eq_getElem h1]; rfl
        rw [e]
        exact List.Forall₂.cons ⟨_, List.getElem?_eq_getElem h1, rfl⟩ (ih fun j hj => hlt j (List.mem_cons_of_mem _ hj))
  have flat2 : ∀ {α β γ : Type} (Rl : α → β → Prop) (f : γ → List α) (g : γ → List β) (l : List γ), (∀ c ∈ l, List.Forall₂ Rl (f c) (g c)) →
      List.Forall₂ Rl (l.flatMap f) (l.flatMap g) := by
    intro α β γ Rl f g l
    induction l with
    | nil => intro _; exact List.Forall₂.nil
    | cons c l ih =>
      intro h
      rw [List.flatMap_cons, List.flatMap_cons]
      exact List.rel_append (h c List.mem_cons_self) (ih fun d hd => h d (List.mem_cons_of_mem _ hd))
  refine ⟨((List.range ((posOf gasOf) R).length).map fun i => (R, i, (⟨0, 0, 0⟩, ⟨0, 0, 0⟩))) ++ ss.flatMap fun S => shs.flatMap (lab S), ?_, ?_, ?_⟩
  · refine List.nodup_append.2 ⟨List.Nodup.map (fun a b h => by simpa using h) List.nodup_range, ?_, ?_⟩
    · rw [List.nodup_flatMap]
      refine ⟨fun S _ => ?_, ?_⟩
      · rw [List.nodup_flatMap]
        refine ⟨fun sh _ => hlabn S sh, hshn.imp fun {a b} hab => ?_⟩
        intro l h1 h2
        obtain ⟨-, i, rfl, -⟩ := (hlab S a l).1 h1
        obtain ⟨-, j, e, -⟩ := (hlab S b _).1 h2
        simp only [Prod.mk.injEq] at e
        exact hab e.2.2
      · refine I.ids.imp fun {a b} hab => ?_
        intro l h1 h2
        obtain ⟨sh, -, h1'⟩ := List.mem_flatMap.1 h1
        obtain ⟨sh', -, h2'⟩ := List.mem_flatMap.1 h2
        obtain ⟨-, i, rfl, -⟩ := (hlab a sh l).1 h1'
        obtain ⟨-, j, e, -⟩ := (hlab b sh' _).1 h2'
        exact hab (by simpa using (Prod.ext_iff.1 e).1)
    · intro a ha b hb hab
      subst hab
      obtain ⟨i, -, rfl⟩ := List.mem_map.1 ha
      obtain ⟨S, -, hb'⟩ := List.mem_flatMap.1 hb
      obtain ⟨sh, -, hb''⟩ := List.mem_flatMap.1 hb'
      obtain ⟨hne, j, e, -⟩ := (hlab S sh _).1 hb''
      simp only [Prod.mk.injEq] at e
      exact hne ⟨e.1.symm, by rw [← e.2.2]⟩
  · unfold mergedGas
    refine List.rel_append ?_ (flat2 _ _ _ _ fun S hS => flat2 _ _ _ _ fun sh _ => hlabI S hS sh)
    rw [List.forall₂_map_left_iff]
    rw [posOf, List.length_map]
    refine forall2_of_getElem _ _ (by rw [List.length_range]) fun k i p h1 h2 => ?_
    have hk : k < (gasOf R).length := (List.getElem?_eq_some_iff.1 h2).1
    rw [List.getElem?_range hk, Option.some.injEq] at h1
    subst h1
    refine ⟨p, h2, ?_⟩
    unfold Gas.moved
    dsimp only
    rw [hsp, V3.addv_zero, V3.addv_zero]
  · intro S i sh
    rw [List.mem_append]
    constructor
    · rintro (h | h)
      · obtain ⟨j, hj, e⟩ := List.mem_map.1 h
        simp only [Prod.mk.injEq] at e
        obtain ⟨rfl, rfl, e1⟩ := e
        have hlt := List.mem_range.1 hj
        have hsh : sh = (⟨0, 0, 0⟩, ⟨0, 0, 0⟩) := e1.symm
        refine ⟨hR, by rw [hsh]; exact I.zero, _, List.getElem?_eq_getElem hlt, ?_⟩
        rw [hsh]
        dsimp only
        rw [V3.addv_zero]
        obtain ⟨⟨x1, x2⟩, ⟨y1, y2⟩, z1, z2⟩ := I.inside R hR _ (List.getElem_mem hlt)
        have hp := I.pos _ hR (List.ne_nil_of_length_pos (by omega))
        refine ⟨⟨?_, ?_⟩, ⟨?_, ?_⟩, ?_, ?_⟩ <;> simp only [V3.subs, V3.adds] <;> linarith
      · obtain ⟨S', hS', h'⟩ := List.mem_flatMap.1 h
        obtain ⟨sh', hsh', h''⟩ := List.mem_flatMap.1 h'
        obtain ⟨-, j, e, p, h1, h2⟩ := (hlab S' sh' _).1 h''
        simp only [Prod.mk.injEq] at e
        obtain ⟨rfl, rfl, rfl⟩ := e
        exact ⟨hS', hsh', p, h1, h2⟩
    · rintro ⟨hS, hsh, p, h1, h2⟩
      by_cases hz : S = R ∧ sh.1 = ⟨0, 0, 0⟩
      · left
        obtain ⟨rfl, hz⟩ := hz
        rw [I.zero_eq sh hsh hz]
        exact List.mem_map.2 ⟨i, List.mem_range.2 (List.getElem?_eq_some_iff.1 h1).1, rfl⟩
      · right
        exact List.mem_flatMap.2 ⟨S, hS, List.mem_flatMap.2 ⟨sh, hsh, (hlab S sh _).2 ⟨hz, i, rfl, p, h1, h2⟩⟩⟩


end
end Shamrock.Sph
