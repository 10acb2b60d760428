import Verif.Proof.AmrDer
import Verif.Proof.AmrGeo
/-! The flags of a pass on the blocks of an octree. -/
namespace Shamrock.Amr

/-- Two integer points are neighbours: they differ by one in one coordinate. -/
def Step1 (p q : V3 Int) : Prop := (q.x - p.x).natAbs + (q.y - p.y).natAbs + (q.z - p.z).natAbs = 1

/-- Two blocks share a face. -/
def Adjacent (a b : Box) : Prop := a ≠ b ∧ ∃ p q, Inside a p ∧ Inside b q ∧ Step1 p q

theorem Step1.symm {p q : V3 Int} (h : Step1 p q) : Step1 q p := by unfold Step1 at *; omega

theorem Adjacent.symm {a b : Box} (h : Adjacent a b) : Adjacent b a := by
  obtain ⟨h, p, q, h1, h2, h3⟩ := h
  exact ⟨fun e => h e.symm, q, p, h2, h1, h3.symm⟩

/-- The width of a block. -/
def side (b : Box) : Int := b.hi.x - b.lo.x

/-- No block is more than twice as wide as a block it shares a face with. -/
def Balanced (L : List Box) : Prop := ∀ a ∈ L, ∀ b ∈ L, Adjacent a b → side a ≤ 2 * side b

/-- The grid of a patch: its blocks are the leaves of an octree, in depth-first (Morton) order; `2 ^ E` is the width of a block of level 0; the links
between blocks of the patch are the shared faces. -/
structure AmrOk (G : Grid) {e : Nat} (t : Oct e) (lo : V3 Int) (E : Nat) : Prop where
  count : G.n = (t.boxes lo).length
  box : ∀ i < G.n, (t.boxes lo)[i]? = some (G.box i)
  small : E ≤ 62
  lvOk : LvOk G
  level : ∀ i < G.n, side (G.box i) * 2 ^ (G.lv i) = 2 ^ E
  links : ∀ a < G.n, ∀ b < G.n, b ∈ G.links a ↔ Adjacent (G.box a) (G.box b)
  bal : Balanced (t.boxes lo)

/-- The blocks the criterion refines. -/
def Wish (G : Grid) (crit : Nat → Bool × Bool) (i : Nat) : Prop := (critFlags G crit i).1 = 1

/-- What the two loops and the geometry kernel establish. -/
structure Plan (G : Grid) (crit : Nat → Bool × Bool) (ref der : List Nat) : Prop where
  refF : IsFlags G ref
  derF : IsFlags G der
  must : ∀ i < G.n, ref[i]? = some 1 ↔ MustRefine G (Wish G crit) i
  oct : ∀ i < G.n, der[i]? = some 1 → Octet G ref ((List.range G.n).map fun i => (critFlags G crit i).2) i
  stable : ∀ i < G.n, der[i]? = some 1 → Stable G ref der i

theorem critFlags_bin (G : Grid) (crit : Nat → Bool × Bool) (i : Nat) : ((critFlags G crit i).1 = 0 ∨ (critFlags G crit i).1 = 1) ∧
    ((critFlags G crit i).2 = 0 ∨ (critFlags G crit i).2 = 1) ∧ ((critFlags G crit i).1 = 1 → (critFlags G crit i).2 = 0) := by
  unfold critFlags
  dsimp only
  generalize ((crit i).1 && decide ((G.box i).hi.x - (G.box i).lo.x > 2) && decide ((G.box i).hi.y - (G.box i).lo.y > 2) &&
    decide ((G.box i).hi.z - (G.box i).lo.z > 2)) = r
  cases r <;> cases (crit i).2 <;> simp

theorem MustRefine.congr {G : Grid} {P Q : Nat → Prop} (h : ∀ i < G.n, P i ↔ Q i) {i : Nat} (hm : MustRefine G P i) : MustRefine G Q i := by
  induction hm with
  | wanted i hi h1 => exact .wanted i hi ((h i hi).1 h1)
  | forced b i hb hi hl hlt ihb => exact .forced b i ihb hi hl hlt

/-- The flags of a pass, whatever the schedules. -/
theorem passFlags_ok {G : Grid} (hlv : LvOk G) (M : Nat) (hM : ∀ i < G.n, G.lv i < M) (hM' : M ≤ 99) (crit : Nat → Bool × Bool) (s1 : Nat → List Nat)
    (s2 : List Nat) : ∃ ref der, passFlags G crit s1 s2 = some (ref, der) ∧ Plan G crit ref der := by
  have f0 : ∀ (f : Nat → Nat), (∀ i, f i = 0 ∨ f i = 1) → IsFlags G ((List.range G.n).map f) := by
    intro f hf
    refine ⟨by simp, fun i hi => ?_⟩
    rw [List.getElem?_map, List.getElem?_range hi, Option.map_some]
    rcases hf i with e | e <;> simp [e]
  have hr0 := f0 (fun i => (critFlags G crit i).1) (fun i => (critFlags_bin G crit i).1)
  have hd0 := f0 (fun i => (critFlags G crit i).2) (fun i => (critFlags_bin G crit i).2.1)
  obtain ⟨ref, a1, a2, a3⟩ := refLoop_ok M hM hlv s1 100 M 0 _ hr0 (by omega) (fun b hb h => by have := hM b hb; omega)
  obtain ⟨der1, b1, b2, b3⟩ := geom_ok a2 hd0 s2
  obtain ⟨der, c1, c2, c3, c4⟩ := derLoop_ok hlv a2 100 M der1 b2 (by omega) (fun i hi h => (b3 i hi h).keep) (fun i hi h hK => by
    have := hM i hi; omega)
  refine ⟨ref, der, ?_, ⟨a2, c2, fun i hi => (a3 i hi).trans ⟨fun h => h.congr fun j hj => ?_, fun h => h.congr fun j hj => ?_⟩,
    fun i hi h => b3 i hi (c3 i hi h), c4⟩⟩
  · unfold passFlags
    simp only [a1, b1, c1, Option.bind_eq_bind, Option.bind_some, Option.pure_def]
  · rw [List.getElem?_map, List.getElem?_range hj, Option.map_some]
    unfold Wish
    simp
  · rw [List.getElem?_map, List.getElem?_range hj, Option.map_some]
    unfold Wish
    simp

section
variable {G : Grid} {e : Nat} {t : Oct e} {lo : V3 Int} {E : Nat} {crit : Nat → Bool × Bool} {ref der : List Nat}

theorem AmrOk.cube (h : AmrOk G t lo E) {i : Nat} (hi : i < G.n) : ∃ s : Int, 0 < s ∧ G.box i = cube (G.box i).lo s := by
  obtain ⟨s, h1, -, h3⟩ := boxes_side t lo _ (List.mem_of_getElem? (h.box i hi))
  exact ⟨s, h1, h3⟩

theorem side_cube (q : V3 Int) (s : Int) : side (Amr.cube q s) = s := by unfold side Amr.cube; dsimp only; omega

theorem AmrOk.lv_le (h : AmrOk G t lo E) {i : Nat} (hi : i < G.n) : G.lv i ≤ E := by
  obtain ⟨s, h1, h2⟩ := h.cube hi
  have h3 := h.level i hi
  rw [h2, side_cube] at h3
  have h4 : (2 : Int) ^ G.lv i ≤ 2 ^ E := by
    rw [← h3]
    have := pow_pos' (G.lv i)
    exact le_mul_of_one_le_left this.le h1
  have h5 : (2 : Nat) ^ G.lv i ≤ 2 ^ E := by exact_mod_cast h4
  exact (Nat.pow_le_pow_iff_right (by omega)).1 h5

/-- Links are symmetric. -/
theorem AmrOk.link_symm (h : AmrOk G t lo E) {a b : Nat} (ha : a < G.n) (hb : b < G.n) (hl : b ∈ G.links a) : a ∈ G.links b :=
  (h.links b hb a ha).2 ((h.links a ha b hb).1 hl).symm

/-- The blocks of a flagged octet are the children of a node. -/
theorem octet_fam (h : AmrOk G t lo E) {der0 : List Nat} {i : Nat} (ho : Octet G ref der0 i) :
    ∃ q s, 0 < s ∧ (∀ k < 8, G.box (i + k) = cube (kidLo q s k) s) ∧ t.IsFam lo i q s := by
  obtain ⟨q, s, h1, h2⟩ := geomOk_window _ ho.geom (fun k hk => h.cube (by have := ho.room; omega))
  refine ⟨q, s, h1, h2, window_fam t lo i q s h1 (fun k hk => ?_)⟩
  rw [h.box (i + k) (by have := ho.room; omega), h2 k hk]

/-- An octet of level 0 is never merged. -/
theorem octet_level (h : AmrOk G t lo E) (P : Plan G crit ref der) {i : Nat} (hi : i < G.n) (hd : der[i]? = some 1) : 1 ≤ G.lv i := by
  have ho := P.oct i hi hd
  obtain ⟨q, s, h1, h2, -⟩ := octet_fam h ho
  have hroom := ho.room
  have hadj : Adjacent (G.box (i + 1)) (G.box i) := by
    have e0 := h2 0 (by omega)
    have e1 := h2 1 (by omega)
    rw [Nat.add_zero] at e0
    rw [e0, e1]
    refine ⟨fun e => ?_, ⟨q.x, q.y, q.z + s⟩, ⟨q.x, q.y, q.z + s - 1⟩, ?_, ?_, ?_⟩
    · have := (cube_inj e).1
      unfold kidLo coordZ at this
      simp at this
      omega
    · unfold Inside cube kidLo coordZ; norm_num; omega
    · unfold Inside cube kidLo coordZ; norm_num; omega
    · unfold Step1; dsimp only; omega
  have hl := (h.links (i + 1) (by omega) i hi).2 hadj
  have hs := P.stable i hi hd 1 (by omega) i hl hi
  by_contra hc
  have hz : G.lv i = 0 := by omega
  unfold futW at hs
  rw [if_pos hd, ho.keep, hz] at hs
  simp [u64dec, w64] at hs

/-- No block of a merged octet is refined. -/
theorem octet_kept (h : AmrOk G t lo E) (P : Plan G crit ref der) {i : Nat} (hi : i < G.n) (hd : der[i]? = some 1) (k : Nat) (hk : k < 8) :
    ref[i + k]? = some 0 := by
  have ho := P.oct i hi hd
  have hroom := ho.room
  rcases P.refF.2 (i + k) (by omega) with q | q
  · exact q
  exfalso
  have hw := ho.want k hk
  rw [List.getElem?_map, List.getElem?_range (by omega), Option.map_some, Option.some.injEq] at hw
  have hm := (P.must (i + k) (by omega)).1 q
  have hlev := ho.level k hk
  cases hm with
  | wanted _ _ hc =>
    have := (critFlags_bin G crit (i + k)).2.2 hc
    omega
  | forced b _ hb _ hl hlt =>
    have hbn := hb.lt
    have hl' := h.link_symm hbn (by omega) hl
    have hs := P.stable i hi hd k hk b hl' hbn
    have hrb := (P.must b hbn).2 hb
    have hdb : der[b]? ≠ some 1 := fun e => by have := (P.oct b hbn e).keep; rw [hrb] at this; cases this
    unfold futW at hs
    rw [if_neg hdb, if_pos hrb] at hs
    have := h.lvOk b
    unfold w64 at hs
    omega

theorem IsFam.unique {e : Nat} (t : Oct e) : ∀ (lo : V3 Int) (i j : Nat) (q q' : V3 Int) (s s' : Int), t.IsFam lo i q s → t.IsFam lo j q' s' →
    i ≤ j → j < i + 8 → i = j := by
  induction t with
  | leaf e => intro lo i j q q' s s' h; exact h.elim
  | @node e c ih =>
    intro lo i j q q' s s' h h' h1 h2
    rcases h with ⟨a1, -, -, a4⟩ | ⟨r, hr, i', rfl, a2⟩
    · rcases h' with ⟨b1, -⟩ | ⟨r', hr', j', rfl, b2⟩
      · omega
      · rw [a4 r' hr'] at b2; exact b2.elim
    · rcases h' with ⟨b1, -, -, b4⟩ | ⟨r', hr', j', rfl, b2⟩
      · rw [b4 r hr] at a2; exact a2.elim
      · have g1 := IsFam.room _ _ _ _ _ a2
        have g2 := IsFam.room _ _ _ _ _ b2
        have hrr : r = r' := by
          rcases Nat.lt_trichotomy r r' with w | w | w
          · have := koff_mono (fun r => (c r).boxes (kidLo lo (2 ^ e) r)) (r + 1) r' (by omega)
            rw [koff_succ] at this; omega
          · exact w
          · have := koff_mono (fun r => (c r).boxes (kidLo lo (2 ^ e) r)) (r' + 1) r (by omega)
            rw [koff_succ] at this; omega
        subst hrr
        have := ih r _ i' j' q q' s s' a2 b2 (by omega) (by omega)
        omega

/-- Two merged octets do not overlap. -/
theorem octet_disjoint (h : AmrOk G t lo E) (P : Plan G crit ref der) {i j : Nat} (hi : der[i]? = some 1) (hj : der[j]? = some 1)
    (h1 : i ≤ j) (h2 : j < i + 8) : i = j := by
  have hin := (List.getElem?_eq_some_iff.1 hi).1
  have hjn := (List.getElem?_eq_some_iff.1 hj).1
  rw [P.derF.1] at hin hjn
  obtain ⟨q, s, -, -, f⟩ := octet_fam h (P.oct i hin hi)
  obtain ⟨q', s', -, -, f'⟩ := octet_fam h (P.oct j hjn hj)
  exact IsFam.unique t lo i j q q' s s' f f' h1 h2

end

end Shamrock.Amr
