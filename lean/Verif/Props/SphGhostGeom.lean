import Verif.Props.SphGhost
import Mathlib.Tactic.Linarith
import Mathlib.Algebra.Order.Field.Basic
/-! C56 in exact arithmetic: which images of which particles are ghosts. -/
namespace Shamrock

section
variable {F : Type} [Field F] [LinearOrder F] [IsStrictOrderedRing F]

theorem MonoOps.exact : MonoOps F := ⟨fun _ _ _ _ h1 h2 => add_le_add h1 h2, fun _ _ _ _ h1 h2 => sub_le_sub h1 h2⟩

/-- Specification: the position is within `r` (each axis) of the box, half open. -/
def InReach (b : Box F) (r : F) (q : V3 F) : Prop := InHalfOpen (b.lower.subs r) (b.upper.adds r) q

/-- Specification: `q` is the particle number `i` of patch `S`, displaced by the shift. -/
def IsImage (psOf : Nat → List (V3 F × F)) (l : Nat × Nat × Shift F) (q : V3 F × F) : Prop :=
  ∃ p, (psOf l.1)[l.2.1]? = some p ∧ q = (p.1.addv l.2.2.2, p.2)

theorem cut_axis (sl su rl ru r o x : F) (h1 : sl ≤ x) (h2 : x < su) :
    (max sl (rl - r + -o) ≤ x ∧ x < min su (ru + r + -o)) ↔ (rl - r ≤ x + o ∧ x + o < ru + r) := by
  rw [max_le_iff, lt_min_iff]
  constructor
  · rintro ⟨⟨-, a⟩, -, b⟩; constructor <;> linarith
  · rintro ⟨a, b⟩; exact ⟨⟨h1, by linarith⟩, h2, by linarith⟩

theorem touch_axis (sl su rl ru r o x : F) (h1 : sl ≤ x) (h2 : x < su) (h3 : rl - r ≤ x + o) (h4 : x + o < ru + r) :
    max (rl - r) (sl + o) ≤ min (ru + r) (su + o) := by
  rw [max_le_iff, le_min_iff, le_min_iff]
  refine ⟨⟨?_, ?_⟩, ?_, ?_⟩ <;> linarith

open Classical in
/-- In exact arithmetic a pair of patches and a shift contribute exactly the images in reach of the receiver. -/
theorem ghosts_exact (rho : Nat → F) (bS bR : Box F) (S R : Nat) (ps : List (V3 F × F)) (sh : Shift F) (hin : ∀ p ∈ ps, InHalfOpen bS.lower bS.upper p.1) :
    ghostsOf rho bS bR S R ps sh = if S = R ∧ sh.1 = ⟨0, 0, 0⟩ then [] else (ps.filter fun p => decide (InReach bR (rho R) (p.1.addv sh.2))).map fun p => (p.1.addv sh.2, p.2) := by
  unfold ghostsOf
  have key : ∀ p ∈ ps, (inPatchConverted p.1 (bS.intersect ((bR.expandAll (rho R)).addOffset sh.2.negv)).lower
      (bS.intersect ((bR.expandAll (rho R)).addOffset sh.2.negv)).upper = true ↔ InReach bR (rho R) (p.1.addv sh.2)) := by
    intro p hp
    obtain ⟨⟨x1, x2⟩, ⟨y1, y2⟩, z1, z2⟩ := hin p hp
    rw [inPatchConverted_iff]
    have ax := cut_axis _ _ bR.lower.x bR.upper.x (rho R) sh.2.x _ x1 x2
    have ay := cut_axis _ _ bR.lower.y bR.upper.y (rho R) sh.2.y _ y1 y2
    have az := cut_axis _ _ bR.lower.z bR.upper.z (rho R) sh.2.z _ z1 z2
    exact and_congr ax (and_congr ay az)
  by_cases hz : S = R ∧ sh.1 = ⟨0, 0, 0⟩
  · rw [if_pos (Or.inl hz), if_pos hz]
  · rw [if_neg hz]
    by_cases ht : Touches bS bR (rho R) sh.2 = false
    · rw [if_pos (Or.inr ht)]
      symm
      rw [List.map_eq_nil_iff, List.filter_eq_nil_iff]
      intro p hp hh
      rw [decide_eq_true_eq] at hh
      obtain ⟨⟨x1, x2⟩, ⟨y1, y2⟩, z1, z2⟩ := hin p hp
      obtain ⟨⟨a1, a2⟩, ⟨b1, b2⟩, c1, c2⟩ := hh
      have : Touches bS bR (rho R) sh.2 = true := by
        simp only [Touches, Box.isNotEmpty, Box.intersect, Box.expandAll, Box.addOffset, vecGeq, V3.vmax, V3.vmin, V3.subs, V3.adds, V3.addv, Bool.and_eq_true, decide_eq_true_eq, ge_iff_le]
        exact ⟨⟨touch_axis _ _ _ _ _ _ _ x1 x2 a1 a2, touch_axis _ _ _ _ _ _ _ y1 y2 b1 b2⟩, touch_axis _ _ _ _ _ _ _ z1 z2 c1 c2⟩
      rw [this] at ht
      cases ht
    · rw [if_neg (by rintro (h | h); exacts [hz h, ht h])]
      congr 1
      refine List.filter_congr fun p hp => ?_
      rw [Bool.eq_iff_iff, key p hp, decide_eq_true_eq]

omit [Field F] [LinearOrder F] [IsStrictOrderedRing F] in
theorem selIdx_forall {α : Type} (p : α → Bool) (l : List α) : List.Forall₂ (fun (i : Nat) a => l[i]? = some a) (selIdx p l) (l.filter p) := by
  rw [← selIdx_values]
  have := selIdx_lt p l
  generalize selIdx p l = is at this ⊢
  induction is with
  | nil => exact List.Forall₂.nil
  | cons i is ih =>
    have hlt := this i List.mem_cons_self
    rw [List.filterMap_cons, List.getElem?_eq_getElem hlt]
    exact List.Forall₂.cons (List.getElem?_eq_getElem hlt) (ih fun j hj => this j (List.mem_cons_of_mem _ hj))

omit [Field F] [LinearOrder F] [IsStrictOrderedRing F] in
theorem mem_selIdx {α : Type} (p : α → Bool) (l : List α) (i : Nat) : i ∈ selIdx p l ↔ ∃ a, l[i]? = some a ∧ p a = true := by
  unfold selIdx
  rw [List.mem_filter, List.mem_range]
  constructor
  · rintro ⟨h1, h2⟩
    rw [List.getElem?_eq_getElem h1] at h2
    exact ⟨_, List.getElem?_eq_getElem h1, h2⟩
  · rintro ⟨a, h1, h2⟩
    exact ⟨(List.getElem?_eq_some_iff.1 h1).1, by rw [h1]; exact h2⟩

/-- What the images need: patches whose particles lie in their box, radii of non empty patches not negative, shifts with different integer offsets, the zero one without displacement. -/
structure ImagesOk (rho : Nat → F) (pbox : Nat → Box F) (psOf : Nat → List (V3 F × F)) (shs : List (Shift F)) (ss : List Nat) : Prop where
  inside : ∀ S ∈ ss, ∀ p ∈ psOf S, InHalfOpen (pbox S).lower (pbox S).upper p.1
  pos : ∀ S ∈ ss, psOf S ≠ [] → 0 ≤ rho S
  ids : ss.Nodup
  shifts : (shs.map (·.1)).Nodup
  zero : (⟨0, 0, 0⟩, ⟨0, 0, 0⟩) ∈ shs

theorem V3.addv_zero (a : V3 F) : a.addv ⟨0, 0, 0⟩ = a := by
  obtain ⟨x, y, z⟩ := a
  simp [V3.addv]

theorem ImagesOk.zero_eq {rho : Nat → F} {pbox : Nat → Box F} {psOf : Nat → List (V3 F × F)} {shs : List (Shift F)} {ss : List Nat} (I : ImagesOk rho pbox psOf shs ss)
    (sh : Shift F) (h : sh ∈ shs) (hz : sh.1 = ⟨0, 0, 0⟩) : sh = (⟨0, 0, 0⟩, ⟨0, 0, 0⟩) :=
  List.inj_on_of_nodup_map I.shifts h I.zero hz

open Classical in
/-- **C56, which ghosts.** In exact arithmetic, for all patches, particles, radii and shifts: the merged content of `R` is, each once, the list of the images
of the particles of all patches (by one of the shifts) that are within the interaction radius of `R` of the box of `R` (half open on each axis). -/
theorem C56_images (rho : Nat → F) (pbox : Nat → Box F) (psOf : Nat → List (V3 F × F)) (shs : List (Shift F)) (ss : List Nat) (I : ImagesOk rho pbox psOf shs ss)
    (R : Nat) (hR : R ∈ ss) : ∃ labels : List (Nat × Nat × Shift F), labels.Nodup ∧ List.Forall₂ (IsImage psOf) labels (mergedOf rho pbox psOf shs ss R) ∧
      ∀ (S i : Nat) (sh : Shift F), (S, i, sh) ∈ labels ↔ S ∈ ss ∧ sh ∈ shs ∧ ∃ p, (psOf S)[i]? = some p ∧ InReach (pbox R) (rho R) (p.1.addv sh.2) := by
  have hshn : shs.Nodup := List.Nodup.of_map _ I.shifts
  let lab : Nat → Shift F → List (Nat × Nat × Shift F) := fun S sh =>
    if S = R ∧ sh.1 = ⟨0, 0, 0⟩ then [] else (selIdx (fun p : V3 F × F => decide (InReach (pbox R) (rho R) (p.1.addv sh.2))) (psOf S)).map fun i => (S, i, sh)
  have hlab : ∀ S sh l, l ∈ lab S sh ↔ ¬ (S = R ∧ sh.1 = ⟨0, 0, 0⟩) ∧ ∃ i, l = (S, i, sh) ∧ ∃ p, (psOf S)[i]? = some p ∧ InReach (pbox R) (rho R) (p.1.addv sh.2) := by
    intro S sh l
    show l ∈ (if S = R ∧ sh.1 = ⟨0, 0, 0⟩ then [] else _) ↔ _
    split
    · rename_i hz
      exact ⟨fun h => absurd h List.not_mem_nil, fun h => absurd hz h.1⟩
    · rename_i hz
      rw [List.mem_map]
      constructor
      · rintro ⟨i, hi, rfl⟩
        obtain ⟨p, h1, h2⟩ := (mem_selIdx _ _ _).1 hi
        exact ⟨hz, i, rfl, p, h1, by simpa using h2⟩
      · rintro ⟨-, i, rfl, p, h1, h2⟩
        exact ⟨i, (mem_selIdx _ _ _).2 ⟨p, h1, by simpa using h2⟩, rfl⟩
  have hlabn : ∀ S sh, (lab S sh).Nodup := by
    intro S sh
    show (if S = R ∧ sh.1 = ⟨0, 0, 0⟩ then [] else _ : List _).Nodup
    split
    · exact List.nodup_nil
    · refine List.Nodup.map (fun a b h => ?_) (List.Nodup.filter _ List.nodup_range)
      simpa using h
  have hlabI : ∀ S ∈ ss, ∀ sh, List.Forall₂ (IsImage psOf) (lab S sh) (ghostsOf rho (pbox S) (pbox R) S R (psOf S) sh) := by
    intro S hS sh
    rw [ghosts_exact rho (pbox S) (pbox R) S R (psOf S) sh (I.inside S hS)]
    show List.Forall₂ _ (if S = R ∧ sh.1 = ⟨0, 0, 0⟩ then [] else _) _
    split
    · exact List.Forall₂.nil
    · rw [List.forall₂_map_left_iff, List.forall₂_map_right_iff]
      exact (selIdx_forall _ _).imp fun i p h => ⟨p, h, rfl⟩
  have flat2 : ∀ {α β γ : Type} (Rl : α → β → Prop) (f : γ → List α) (g : γ → List β) (l : List γ), (∀ c ∈ l, List.Forall₂ Rl (f c) (g c)) →
      List.Forall₂ Rl (l.flatMap f) (l.flatMap g) := by
    intro α β γ Rl f g l
    induction l with
    | nil => intro _; exact List.Forall₂.nil
    | cons c l ih =>
      intro h
      rw [List.flatMap_cons, List.flatMap_cons]
      exact List.rel_append (h c List.mem_cons_self) (ih fun d hd => h d (List.mem_cons_of_mem _ hd))
  refine ⟨((List.range (psOf R).length).map fun i => (R, i, (⟨0, 0, 0⟩, ⟨0, 0, 0⟩))) ++ ss.flatMap fun S => shs.flatMap (lab S), ?_, ?_, ?_⟩
  · refine List.nodup_append.2 ⟨List.Nodup.map (fun a b h => by simpa using h) List.nodup_range, ?_, ?_⟩
    · rw [List.nodup_flatMap]
      refine ⟨fun S _ => ?_, ?_⟩
      · rw [List.nodup_flatMap]
        refine ⟨fun sh _ => hlabn S sh, hshn.imp fun {a b} hab => ?_⟩
        intro l h1 h2
        obtain ⟨-, i, rfl, -⟩ := (hlab S a l).1 h1
        obtain ⟨-, j, e, -⟩ := (hlab S b _).1 h2
        simp only [Prod.mk.injEq] at e
        exact hab e.2.2
      · refine I.ids.imp fun {a b} hab => ?_
        intro l h1 h2
        obtain ⟨sh, -, h1'⟩ := List.mem_flatMap.1 h1
        obtain ⟨sh', -, h2'⟩ := List.mem_flatMap.1 h2
        obtain ⟨-, i, rfl, -⟩ := (hlab a sh l).1 h1'
        obtain ⟨-, j, e, -⟩ := (hlab b sh' _).1 h2'
        exact hab (by simpa using (Prod.ext_iff.1 e).1)
    · intro a ha b hb hab
      subst hab
      obtain ⟨i, -, rfl⟩ := List.mem_map.1 ha
      obtain ⟨S, -, hb'⟩ := List.mem_flatMap.1 hb
      obtain ⟨sh, -, hb''⟩ := List.mem_flatMap.1 hb'
      obtain ⟨hne, j, e, -⟩ := (hlab S sh _).1 hb''
      simp only [Prod.mk.injEq] at e
      exact hne ⟨e.1.symm, by rw [← e.2.2]⟩
  · unfold mergedOf
    refine List.rel_append ?_ (flat2 _ _ _ _ fun S hS => flat2 _ _ _ _ fun sh _ => hlabI S hS sh)
    rw [List.forall₂_map_left_iff]
    refine forall2_of_getElem _ _ (by rw [List.length_range]) fun k i p h1 h2 => ?_
    have hk : k < (psOf R).length := (List.getElem?_eq_some_iff.1 h2).1
    rw [List.getElem?_range hk, Option.some.injEq] at h1
    subst h1
    exact ⟨p, h2, by rw [V3.addv_zero]⟩
  · intro S i sh
    rw [List.mem_append]
    constructor
    · rintro (h | h)
      · obtain ⟨j, hj, e⟩ := List.mem_map.1 h
        simp only [Prod.mk.injEq] at e
        obtain ⟨rfl, rfl, e1⟩ := e
        have hlt := List.mem_range.1 hj
        have hsh : sh = (⟨0, 0, 0⟩, ⟨0, 0, 0⟩) := e1.symm
        refine ⟨hR, by rw [hsh]; exact I.zero, _, List.getElem?_eq_getElem hlt, ?_⟩
        rw [hsh]
        dsimp only
        rw [V3.addv_zero]
        obtain ⟨⟨x1, x2⟩, ⟨y1, y2⟩, z1, z2⟩ := I.inside R hR _ (List.getElem_mem hlt)
        have hp := I.pos _ hR (List.ne_nil_of_length_pos (by omega))
        refine ⟨⟨?_, ?_⟩, ⟨?_, ?_⟩, ?_, ?_⟩ <;> simp only [V3.subs, V3.adds] <;> linarith
      · obtain ⟨S', hS', h'⟩ := List.mem_flatMap.1 h
        obtain ⟨sh', hsh', h''⟩ := List.mem_flatMap.1 h'
        obtain ⟨-, j, e, p, h1, h2⟩ := (hlab S' sh' _).1 h''
        simp only [Prod.mk.injEq] at e
        obtain ⟨rfl, rfl, rfl⟩ := e
        exact ⟨hS', hsh', p, h1, h2⟩
    · rintro ⟨hS, hsh, p, h1, h2⟩
      by_cases hz : S = R ∧ sh.1 = ⟨0, 0, 0⟩
      · left
        obtain ⟨rfl, hz⟩ := hz
        rw [I.zero_eq sh hsh hz]
        exact List.mem_map.2 ⟨i, List.mem_range.2 (List.getElem?_eq_some_iff.1 h1).1, rfl⟩
      · right
        exact List.mem_flatMap.2 ⟨S, hS, List.mem_flatMap.2 ⟨sh, hsh, (hlab S sh _).2 ⟨hz, i, rfl, p, h1, h2⟩⟩⟩

/-! ### Lattices of images -/

omit [Field F] [LinearOrder F] [IsStrictOrderedRing F] in
theorem mem_offsets (r m : Int) (hr : 0 ≤ r) : m ∈ offsets r ↔ -r ≤ m ∧ m ≤ r := by
  unfold offsets
  rw [List.mem_map]
  constructor
  · rintro ⟨i, hi, rfl⟩
    rw [List.mem_range] at hi
    omega
  · intro h
    exact ⟨(m + r).toNat, by rw [List.mem_range]; omega, by omega⟩

theorem offsets_nodup (r : Int) : (offsets r).Nodup := by
  unfold offsets
  exact List.Nodup.map (fun a b h => by have h' : (a : Int) - r = (b : Int) - r := h; omega) List.nodup_range

theorem mem_offsets3 (rx ry rz : Int) (hx : 0 ≤ rx) (hy : 0 ≤ ry) (hz : 0 ≤ rz) (k : V3 Int) : k ∈ offsets3 rx ry rz ↔
    (-rx ≤ k.x ∧ k.x ≤ rx) ∧ (-ry ≤ k.y ∧ k.y ≤ ry) ∧ (-rz ≤ k.z ∧ k.z ≤ rz) := by
  unfold offsets3
  simp only [List.mem_flatMap, List.mem_map, mem_offsets _ _ hx, mem_offsets _ _ hy, mem_offsets _ _ hz]
  constructor
  · rintro ⟨x, h1, y, h2, z, h3, rfl⟩; exact ⟨h1, h2, h3⟩
  · rintro ⟨h1, h2, h3⟩; exact ⟨_, h1, _, h2, _, h3, rfl⟩

theorem offsets3_nodup (rx ry rz : Int) : (offsets3 rx ry rz).Nodup := by
  unfold offsets3
  rw [List.nodup_flatMap]
  refine ⟨fun x _ => ?_, (offsets_nodup rx).imp fun {a b} hab => ?_⟩
  · rw [List.nodup_flatMap]
    refine ⟨fun y _ => List.Nodup.map (fun a b h => by simpa using h) (offsets_nodup rz), (offsets_nodup ry).imp fun {a b} hab => ?_⟩
    intro k h1 h2
    obtain ⟨z, -, rfl⟩ := List.mem_map.1 h1
    obtain ⟨z', -, e⟩ := List.mem_map.1 h2
    simp only [V3.mk.injEq] at e
    exact hab e.2.1.symm
  · intro k h1 h2
    obtain ⟨y, -, h1⟩ := List.mem_flatMap.1 h1
    obtain ⟨z, -, rfl⟩ := List.mem_map.1 h1
    obtain ⟨y', -, h2⟩ := List.mem_flatMap.1 h2
    obtain ⟨z', -, e⟩ := List.mem_map.1 h2
    simp only [V3.mk.injEq] at e
    exact hab e.1.symm

/-- Specification: the domain and its patches: particles in the box of their patch, boxes in the domain of size `L`, radii at most the size of the domain. -/
structure DomainOk (rho : Nat → F) (pbox : Nat → Box F) (psOf : Nat → List (V3 F × F)) (ss : List Nat) (lo L : V3 F) : Prop where
  inside : ∀ S ∈ ss, ∀ p ∈ psOf S, InHalfOpen (pbox S).lower (pbox S).upper p.1
  boxes : ∀ S ∈ ss, (lo.x ≤ (pbox S).lower.x ∧ (pbox S).upper.x ≤ lo.x + L.x) ∧ (lo.y ≤ (pbox S).lower.y ∧ (pbox S).upper.y ≤ lo.y + L.y) ∧
    (lo.z ≤ (pbox S).lower.z ∧ (pbox S).upper.z ≤ lo.z + L.z)
  radius : ∀ S ∈ ss, (psOf S ≠ [] → 0 ≤ rho S) ∧ rho S ≤ L.x ∧ rho S ≤ L.y ∧ rho S ≤ L.z
  ids : ss.Nodup

/-- Specification: the merged content of `R` is, each once, the list of ALL lattice images (displacement `D k`, `k` any integer vector) of all particles that are
in reach of `R`. -/
def AllImages (D : V3 Int → V3 F) (rho : Nat → F) (pbox : Nat → Box F) (psOf : Nat → List (V3 F × F)) (ss : List Nat) (R : Nat) (merged : List (V3 F × F)) : Prop :=
  ∃ labels : List (Nat × Nat × V3 Int), labels.Nodup ∧
    List.Forall₂ (fun l q => ∃ p, (psOf l.1)[l.2.1]? = some p ∧ q = (p.1.addv (D l.2.2), p.2)) labels merged ∧
    ∀ (S i : Nat) (k : V3 Int), (S, i, k) ∈ labels ↔ S ∈ ss ∧ ∃ p, (psOf S)[i]? = some p ∧ InReach (pbox R) (rho R) (p.1.addv (D k))

theorem lattice_images (D : V3 Int → V3 F) (offs : List (V3 Int)) (ho : offs.Nodup) (h0 : ⟨0, 0, 0⟩ ∈ offs) (hD : D ⟨0, 0, 0⟩ = ⟨0, 0, 0⟩)
    (rho : Nat → F) (pbox : Nat → Box F) (psOf : Nat → List (V3 F × F)) (ss : List Nat) (lo L : V3 F) (d : DomainOk rho pbox psOf ss lo L)
    (hc : ∀ k, |(D k).x| < 2 * L.x → |(D k).y| < 2 * L.y → |(D k).z| < 2 * L.z → k ∈ offs) (R : Nat) (hR : R ∈ ss) :
    AllImages D rho pbox psOf ss R (mergedOf rho pbox psOf (offs.map fun k => (k, D k)) ss R) := by
  have hm : (offs.map fun k => (k, D k)).map (fun sh : Shift F => sh.1) = offs := by
    rw [List.map_map]
    exact List.map_id _
  obtain ⟨labels, l1, l2, l3⟩ := C56_images rho pbox psOf (offs.map fun k => (k, D k)) ss
    ⟨d.inside, fun S hS => (d.radius S hS).1, d.ids, by rw [hm]; exact ho, List.mem_map.2 ⟨_, h0, by rw [hD]⟩⟩ R hR
  have hD' : ∀ l ∈ labels, l.2.2.2 = D l.2.2.1 := by
    rintro ⟨S, i, sh⟩ hl
    obtain ⟨k, -, rfl⟩ := List.mem_map.1 ((l3 S i sh).1 hl).2.1
    rfl
  refine ⟨labels.map fun l => (l.1, l.2.1, l.2.2.1), ?_, ?_, ?_⟩
  · refine List.Nodup.map_on ?_ l1
    rintro ⟨S, i, a, b⟩ h1 ⟨S', i', a', b'⟩ h2 e
    simp only [Prod.mk.injEq] at e
    obtain ⟨rfl, rfl, rfl⟩ := e
    have e1 := hD' _ h1
    have e2 := hD' _ h2
    simp only at e1 e2
    rw [e1, e2]
  · rw [List.forall₂_map_left_iff]
    clear l1 l3
    generalize mergedOf rho pbox psOf (offs.map fun k => (k, D k)) ss R = mg at l2
    induction l2 with
    | nil => exact List.Forall₂.nil
    | @cons l q ls qs h1 h2 ih =>
      refine List.Forall₂.cons ?_ (ih fun x hx => hD' x (List.mem_cons_of_mem _ hx))
      obtain ⟨p, a, b⟩ := h1
      exact ⟨p, a, by rw [b, hD' l List.mem_cons_self]⟩
  · intro S i k
    constructor
    · intro h
      obtain ⟨⟨S', i', sh⟩, hl, e⟩ := List.mem_map.1 h
      simp only [Prod.mk.injEq] at e
      obtain ⟨rfl, rfl, rfl⟩ := e
      have hd := hD' _ hl
      obtain ⟨a, b, p, c, e⟩ := (l3 S' i' sh).1 hl
      dsimp only at hd
      rw [hd] at e
      exact ⟨a, p, c, e⟩
    · rintro ⟨hS, p, hp, hin⟩
      have hpm := List.mem_of_getElem? hp
      obtain ⟨⟨x1, x2⟩, ⟨y1, y2⟩, z1, z2⟩ := d.inside S hS p hpm
      obtain ⟨⟨a1, a2⟩, ⟨a3, a4⟩, a5, a6⟩ := d.boxes S hS
      obtain ⟨⟨b1, b2⟩, ⟨b3, b4⟩, b5, b6⟩ := d.boxes R hR
      obtain ⟨-, r1, r2, r3⟩ := d.radius R hR
      have hin' := hin
      obtain ⟨⟨c1, c2⟩, ⟨c3, c4⟩, c5, c6⟩ := hin'
      simp only [V3.subs, V3.adds, V3.addv] at c1 c2 c3 c4 c5 c6
      have hk : k ∈ offs := by
        refine hc k ?_ ?_ ?_ <;> rw [abs_lt] <;> constructor <;> linarith
      refine List.mem_map.2 ⟨(S, i, (k, D k)), (l3 _ _ _).2 ⟨hS, List.mem_map.2 ⟨k, hk, rfl⟩, p, hp, hin⟩, rfl⟩

/-- **C56, periodic box.** For all patches, particles and radii up to the size of the box: the merged content of a patch is exactly, each once, the list
of all periodic images `x + k L`, `k` any integer vector, of all particles of the simulation that are in reach of the patch. -/
theorem C56_periodic (rho : Nat → F) (pbox : Nat → Box F) (psOf : Nat → List (V3 F × F)) (ss : List Nat) (lo L : V3 F) (d : DomainOk rho pbox psOf ss lo L)
    (hL : 0 < L.x ∧ 0 < L.y ∧ 0 < L.z) (R : Nat) (hR : R ∈ ss) :
    AllImages (fun k => ⟨(k.x : F) * L.x, (k.y : F) * L.y, (k.z : F) * L.z⟩) rho pbox psOf ss R (mergedOf rho pbox psOf (periodicShifts L) ss R) := by
  refine lattice_images _ (offsets3 1 1 1) (offsets3_nodup _ _ _) ?_ ?_ rho pbox psOf ss lo L d ?_ R hR
  · rw [mem_offsets3 _ _ _ (by omega) (by omega) (by omega)]; simp
  · simp
  · intro k hx hy hz
    have ax : ∀ (m : Int) (l : F), 0 < l → |(m : F) * l| < 2 * l → -1 ≤ m ∧ m ≤ 1 := by
      intro m l hl h
      rw [abs_mul, abs_of_pos hl] at h
      have h2 : |(m : F)| < 2 := lt_of_mul_lt_mul_right h hl.le
      rw [abs_lt] at h2
      have h3 : (m : F) < ((2 : Int) : F) := by push_cast; exact h2.2
      have h4 : ((-2 : Int) : F) < (m : F) := by push_cast; exact h2.1
      rw [Int.cast_lt] at h3 h4
      omega
    rw [mem_offsets3 _ _ _ (by omega) (by omega) (by omega)]
    exact ⟨ax _ _ hL.1 hx, ax _ _ hL.2.1 hy, ax _ _ hL.2.2 hz⟩

/-- **C56, free boundary**: all particles in reach of the patch, each once, not displaced. -/
theorem C56_free (rho : Nat → F) (pbox : Nat → Box F) (psOf : Nat → List (V3 F × F)) (ss : List Nat) (hin : ∀ S ∈ ss, ∀ p ∈ psOf S, InHalfOpen (pbox S).lower (pbox S).upper p.1)
    (hpos : ∀ S ∈ ss, psOf S ≠ [] → 0 ≤ rho S) (hn : ss.Nodup) (R : Nat) (hR : R ∈ ss) :
    ∃ labels : List (Nat × Nat), labels.Nodup ∧ List.Forall₂ (fun (l : Nat × Nat) q => (psOf l.1)[l.2]? = some q) labels (mergedOf rho pbox psOf freeShifts ss R) ∧
      ∀ (S i : Nat), (S, i) ∈ labels ↔ S ∈ ss ∧ ∃ p, (psOf S)[i]? = some p ∧ InReach (pbox R) (rho R) p.1 := by
  obtain ⟨labels, l1, l2, l3⟩ := C56_images rho pbox psOf freeShifts ss ⟨hin, hpos, hn, by simp [freeShifts], by simp [freeShifts]⟩ R hR
  have hz : ∀ l ∈ labels, l.2.2 = ((⟨0, 0, 0⟩, ⟨0, 0, 0⟩) : Shift F) := by
    rintro ⟨S, i, sh⟩ hl
    have := ((l3 S i sh).1 hl).2.1
    simpa [freeShifts] using this
  refine ⟨labels.map fun l => (l.1, l.2.1), ?_, ?_, ?_⟩
  · refine List.Nodup.map_on ?_ l1
    rintro ⟨S, i, a⟩ h1 ⟨S', i', a'⟩ h2 e
    simp only [Prod.mk.injEq] at e
    obtain ⟨rfl, rfl⟩ := e
    have e1 := hz _ h1
    have e2 := hz _ h2
    simp only at e1 e2
    rw [e1, e2]
  · rw [List.forall₂_map_left_iff]
    clear l1 l3
    generalize mergedOf rho pbox psOf freeShifts ss R = mg at l2
    induction l2 with
    | nil => exact List.Forall₂.nil
    | @cons l q ls qs h1 h2 ih =>
      refine List.Forall₂.cons ?_ (ih fun x hx => hz x (List.mem_cons_of_mem _ hx))
      obtain ⟨p, a, b⟩ := h1
      rw [hz l List.mem_cons_self] at b
      dsimp only at b
      rw [V3.addv_zero] at b
      rw [b]; exact a
  · intro S i
    constructor
    · intro h
      obtain ⟨⟨S', i', sh⟩, hl, e⟩ := List.mem_map.1 h
      simp only [Prod.mk.injEq] at e
      obtain ⟨rfl, rfl⟩ := e
      have hd := hz _ hl
      obtain ⟨a, b, p, c, e⟩ := (l3 S' i' sh).1 hl
      dsimp only at hd
      rw [hd] at e
      dsimp only at e
      rw [V3.addv_zero] at e
      exact ⟨a, p, c, e⟩
    · rintro ⟨hS, p, hp, h⟩
      refine List.mem_map.2 ⟨(S, i, (⟨0, 0, 0⟩, ⟨0, 0, 0⟩)), (l3 _ _ _).2 ⟨hS, by simp [freeShifts], p, hp, ?_⟩, rfl⟩
      dsimp only
      rw [V3.addv_zero]; exact h

/-- **C56, neighbours.** In a content that has all images, every particle of the patch finds every image within the radius of the patch on each axis. -/
theorem C56_neighbours (D : V3 Int → V3 F) (rho : Nat → F) (pbox : Nat → Box F) (psOf : Nat → List (V3 F × F)) (ss : List Nat) (R : Nat) (merged : List (V3 F × F))
    (hall : AllImages D rho pbox psOf ss R merged) (hin : ∀ p ∈ psOf R, InHalfOpen (pbox R).lower (pbox R).upper p.1)
    (x : V3 F × F) (hx : x ∈ psOf R) (S : Nat) (hS : S ∈ ss) (y : V3 F × F) (hy : y ∈ psOf S) (k : V3 Int)
    (hd : |x.1.x - (y.1.x + (D k).x)| ≤ rho R ∧ |x.1.y - (y.1.y + (D k).y)| ≤ rho R ∧ |x.1.z - (y.1.z + (D k).z)| ≤ rho R) :
    (y.1.addv (D k), y.2) ∈ merged := by
  obtain ⟨labels, -, l2, l3⟩ := hall
  obtain ⟨i, hi⟩ := List.mem_iff_getElem?.1 hy
  obtain ⟨⟨x1, x2⟩, ⟨y1, y2⟩, z1, z2⟩ := hin x hx
  obtain ⟨d1, d2, d3⟩ := hd
  rw [abs_le] at d1 d2 d3
  have hm : (S, i, k) ∈ labels := (l3 S i k).2 ⟨hS, y, hi, by
    refine ⟨⟨?_, ?_⟩, ⟨?_, ?_⟩, ?_, ?_⟩ <;> simp only [V3.subs, V3.adds, V3.addv] <;> linarith⟩
  obtain ⟨q, hq, p, h1, h2⟩ := forall2_exists_left l2 _ hm
  dsimp only at h1 h2
  rw [hi, Option.some.injEq] at h1
  subst h1
  rw [← h2]; exact hq

/-! ### Shearing box -/

/-- Specification: a unit vector along an axis. -/
def IsAxis (v : V3 Int) : Prop := v = ⟨1, 0, 0⟩ ∨ v = ⟨0, 1, 0⟩ ∨ v = ⟨0, 0, 1⟩

theorem small_int (m : Int) (h : |(m : F)| < 1) : m = 0 := by
  rw [abs_lt] at h
  have h3 : (m : F) < ((1 : Int) : F) := by push_cast; exact h.2
  have h4 : ((-1 : Int) : F) < (m : F) := by push_cast; exact h.1
  rw [Int.cast_lt] at h3 h4
  omega

theorem shear_plain (m : Int) (l : F) (hl : 0 < l) (h : |l * (m : F)| < 2 * l) : -1 ≤ m ∧ m ≤ 1 := by
  rw [mul_comm, abs_mul, abs_of_pos hl] at h
  have h2 : |(m : F)| < 2 := lt_of_mul_lt_mul_right h hl.le
  rw [abs_lt] at h2
  have h3 : (m : F) < ((2 : Int) : F) := by push_cast; exact h2.2
  have h4 : ((-2 : Int) : F) < (m : F) := by push_cast; exact h2.1
  rw [Int.cast_lt] at h3 h4
  omega

theorem shear_along (trunc : F → Int) (htr : ∀ x, |x - (trunc x : F)| < 1) (m d : Int) (v l : F) (hl : 0 < l) (h : |(d : F) * v + l * (m : F)| < 2 * l) :
    -2 ≤ m + trunc ((d : F) * v / l) ∧ m + trunc ((d : F) * v / l) ≤ 2 := by
  have hv : (d : F) * v = l * ((d : F) * v / l) := (mul_div_cancel₀ _ hl.ne').symm
  generalize (d : F) * v / l = q at hv ⊢
  have ht := htr q
  rw [hv, ← mul_add, mul_comm, abs_mul, abs_of_pos hl] at h
  have h2 : |q + (m : F)| < 2 := lt_of_mul_lt_mul_right h hl.le
  rw [abs_lt] at h2 ht
  have h3 : ((m + trunc q : Int) : F) < ((3 : Int) : F) := by push_cast; linarith
  have h4 : ((-3 : Int) : F) < ((m + trunc q : Int) : F) := by push_cast; linarith
  rw [Int.cast_lt] at h3 h4
  omega

theorem shear_offs (trunc : F → Int) (htr : ∀ x, |x - (trunc x : F)| < 1) (c : ShearCfg F) (hb : IsAxis c.base) (hd : IsAxis c.dir) (hne : c.base ≠ c.dir)
    (L : V3 F) (hL : 0 < L.x ∧ 0 < L.y ∧ 0 < L.z) : (shearOffsets trunc c L).Nodup ∧ ⟨0, 0, 0⟩ ∈ shearOffsets trunc c L ∧ shearShift c L ⟨0, 0, 0⟩ = ⟨0, 0, 0⟩ ∧
      ∀ k, |(shearShift c L k).x| < 2 * L.x → |(shearShift c L k).y| < 2 * L.y → |(shearShift c L k).z| < 2 * L.z → k ∈ shearOffsets trunc c L := by
  have ht0 : trunc 0 = 0 := by
    have := htr 0
    rw [zero_sub, abs_neg] at this
    exact small_int _ this
  obtain ⟨base, dir, v⟩ := c
  dsimp only at hb hd hne
  unfold shearOffsets
  refine ⟨?_, ?_, ?_, ?_⟩
  · refine List.Nodup.map ?_ (offsets3_nodup _ _ _)
    rintro ⟨a1, a2, a3⟩ ⟨b1, b2, b3⟩ e
    rcases hb with rfl | rfl | rfl <;> rcases hd with rfl | rfl | rfl <;> first
      | exact absurd rfl hne
      | (simp only [ShearCfg.d, V3.mk.injEq, mul_zero, mul_one, zero_mul, one_mul, add_zero, zero_add] at e ⊢
         obtain ⟨e1, e2, e3⟩ := e
         subst_vars
         simp_all)
  · refine List.mem_map.2 ⟨⟨0, 0, 0⟩, ?_, ?_⟩
    · rw [mem_offsets3 _ _ _ (by omega) (by omega) (by omega)]
      refine ⟨⟨?_, ?_⟩, ⟨?_, ?_⟩, ?_, ?_⟩ <;> dsimp only <;> omega
    · simp [ShearCfg.d, ht0]
  · simp [shearShift, ShearCfg.d]
  · rintro ⟨k1, k2, k3⟩ hx hy hz
    rcases hb with rfl | rfl | rfl <;> rcases hd with rfl | rfl | rfl <;> first
      | exact absurd rfl hne
      | (simp only [shearShift, ShearCfg.d, mul_zero, mul_one, zero_mul, one_mul, add_zero, zero_add, Int.cast_zero, Int.cast_one] at hx hy hz
         simp only [ShearCfg.d, mul_zero, mul_one, zero_mul, one_mul, add_zero, zero_add, Int.cast_zero, Int.cast_one, Int.natAbs_zero, Int.natAbs_one, Nat.cast_zero, Nat.cast_one]
         first
           | (have h1 := shear_along trunc htr _ _ _ _ hL.1 hx
              have h2 := shear_plain _ _ hL.2.1 hy
              have h3 := shear_plain _ _ hL.2.2 hz
              refine List.mem_map.2 ⟨⟨k1 + trunc _, k2, k3⟩, (mem_offsets3 _ _ _ (by omega) (by omega) (by omega) _).2 ⟨by simpa using h1, by simpa using h2, by simpa using h3⟩, ?_⟩
              simp)
           | (have h1 := shear_plain _ _ hL.1 hx
              have h2 := shear_along trunc htr _ _ _ _ hL.2.1 hy
              have h3 := shear_plain _ _ hL.2.2 hz
              refine List.mem_map.2 ⟨⟨k1, k2 + trunc _, k3⟩, (mem_offsets3 _ _ _ (by omega) (by omega) (by omega) _).2 ⟨by simpa using h1, by simpa using h2, by simpa using h3⟩, ?_⟩
              simp)
           | (have h1 := shear_plain _ _ hL.1 hx
              have h2 := shear_plain _ _ hL.2.1 hy
              have h3 := shear_along trunc htr _ _ _ _ hL.2.2 hz
              refine List.mem_map.2 ⟨⟨k1, k2, k3 + trunc _⟩, (mem_offsets3 _ _ _ (by omega) (by omega) (by omega) _).2 ⟨by simpa using h1, by simpa using h2, by simpa using h3⟩, ?_⟩
              simp))


/-- **C56, shearing box.** For a shear along one axis at the boundary of another one, in the positive direction, of any amount: the same, for the sheared
lattice `x + k L + (k · base) value dir`. `trunc` is any conversion to an integer with error below one. -/
theorem C56_shearing (trunc : F → Int) (htr : ∀ x, |x - (trunc x : F)| < 1) (c : ShearCfg F) (hb : IsAxis c.base) (hd : IsAxis c.dir) (hne : c.base ≠ c.dir)
    (rho : Nat → F) (pbox : Nat → Box F) (psOf : Nat → List (V3 F × F)) (ss : List Nat) (lo L : V3 F) (d : DomainOk rho pbox psOf ss lo L)
    (hL : 0 < L.x ∧ 0 < L.y ∧ 0 < L.z) (R : Nat) (hR : R ∈ ss) :
    AllImages (shearShift c L) rho pbox psOf ss R (mergedOf rho pbox psOf (shearShifts trunc c L) ss R) := by
  obtain ⟨h1, h2, h3, h4⟩ := shear_offs trunc htr c hb hd hne L hL
  exact lattice_images _ _ h1 h2 h3 rho pbox psOf ss lo L d h4 R hR

end
end Shamrock
