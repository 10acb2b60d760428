import Verif.Proof.SphGas
/-! Sums of the derivatives over all particles of all patches. -/
namespace Shamrock.Sph

section
variable {K : Type} [Field K] [LinearOrder K] [IsStrictOrderedRing K]

/-- Specification: the opposite offset. -/
def ineg (k : V3 Int) : V3 Int := ⟨-k.x, -k.y, -k.z⟩

theorem ineg_ineg (k : V3 Int) : ineg (ineg k) = k := by
  obtain ⟨a, b, c⟩ := k
  simp [ineg]

/-- Specification: what the kernel sees of a particle; the pressure and the sound speed come from the equation of state. -/
def partOf (eos : K → K → K × K) (visc : Visc K) (g : Gas K) : Part K :=
  ⟨g.x, g.h, g.v, g.u, g.omega, (eos g.h g.u).1, (eos g.h g.u).2, match visc with | .field => g.alpha | .const al => al | .disc al => al⟩

/-- Specification: the buffers holding the given particles. -/
def gasBufs (eos : K → K → K × K) (gs : List (Gas K)) : Bufs K := bufsOf eos (gs.map (·.x)) (mkFields gs) ⟨1, gs.map (·.alpha)⟩

theorem gasBufs_get (eos : K → K → K × K) (visc : Visc K) (gs : List (Gas K)) (i : Nat) (g : Gas K) (h : gs[i]? = some g) :
    (gasBufs eos gs).get visc i = some (partOf eos visc g) := by
  have hz : ∀ f : Gas K → K × K, ((gs.map (·.h)).zip (gs.map (·.u))) = gs.map fun g => (g.h, g.u) := by
    intro _
    rw [List.zip_map']
  unfold Bufs.get gasBufs bufsOf mkFields
  dsimp only
  rw [hz (fun g => eos g.h g.u)]
  simp only [List.getElem?_map, h, Option.map_some, Option.bind_eq_bind, Option.bind_some]
  cases visc <;> rfl

/-- Everything the conservation needs: images (C56), an image in reach whose opposite offset is in the list has its offset in the list too, opposite offsets have opposite displacement and speed, positive
mass and smoothing lengths, radii of the patches that cover the kernels of their particles and of the images that reach them. -/
structure SphOk (C : Cfg K) (rho : Nat → K) (pbox : Nat → Box K) (gasOf : Nat → List (Gas K)) (offs : List (V3 Int)) (D V : V3 Int → V3 K) (ss : List Nat) : Prop where
  images : ImagesOk rho pbox (posOf gasOf) (offs.map fun k => (k, D k)) ss
  all : ∀ R ∈ ss, ∀ S ∈ ss, ∀ g ∈ gasOf S, ∀ k, ineg k ∈ offs → InReach (pbox R) (rho R) (g.x.addv (D k)) → k ∈ offs
  oddD : ∀ k, D (ineg k) = vneg (D k)
  oddV : ∀ k, V (ineg k) = vneg (V k)
  rkern : 0 ≤ C.rkern
  mass : 0 < C.pmass ∧ 0 < C.hfact
  gas : ∀ S ∈ ss, ∀ g ∈ gasOf S, 0 < g.h ∧ g.omega ≠ 0
  own : ∀ R ∈ ss, ∀ a ∈ gasOf R, C.rkern * a.h ≤ rho R
  seen : ∀ R ∈ ss, ∀ S ∈ ss, ∀ a ∈ gasOf R, ∀ b ∈ gasOf S, ∀ k, dot (vsub a.x (b.x.addv (D k))) (vsub a.x (b.x.addv (D k))) ≤ (C.rkern * b.h) ^ 2 → C.rkern * b.h ≤ rho R

/-- What the caches of the patches must be (C54 for exact arithmetic), with search lengths `Hh` that cover the smoothing lengths. -/
structure CachesOk (C : Cfg K) (htol : K) (merged : Nat → List (Gas K)) (gasOf : Nat → List (Gas K)) (Hh : Nat → Nat → K) (cache : Nat → ObjCache) (ss : List Nat) : Prop where
  tol : 0 ≤ htol
  len : ∀ R ∈ ss, ∀ (i : Nat) g, (merged R)[i]? = some g → 0 ≤ Hh R i ∧ g.h ≤ htol * Hh R i
  spec : ∀ R ∈ ss, gasOf R ≠ [] →
    NeighSpec (exactSph htol C.rkern) (fun i => ((merged R).map (·.x)).getD i ⟨0, 0, 0⟩) (Hh R) (gasOf R).length (merged R).length (cache R)

theorem odd_zero (D : V3 Int → V3 K) (h : ∀ k, D (ineg k) = vneg (D k)) : D ⟨0, 0, 0⟩ = ⟨0, 0, 0⟩ := by
  have := h ⟨0, 0, 0⟩
  have e : ineg ⟨0, 0, 0⟩ = ⟨0, 0, 0⟩ := by simp [ineg]
  rw [e] at this
  have hx := congrArg V3.x this
  have hy := congrArg V3.y this
  have hz := congrArg V3.z this
  simp only [vneg] at hx hy hz
  apply v3_ext <;> dsimp only <;> linarith

variable {C : Cfg K} {rho : Nat → K} {pbox : Nat → Box K} {gasOf : Nat → List (Gas K)} {offs : List (V3 Int)} {D V : V3 Int → V3 K} {ss : List Nat}

theorem gas_lattice (H : SphOk C rho pbox gasOf offs D V ss) (R : Nat) (hR : R ∈ ss) :
    ∃ labels : List ((Nat × Nat) × V3 Int), labels.Nodup ∧
      List.Forall₂ (fun (l : (Nat × Nat) × V3 Int) g => ∃ p, (gasOf l.1.1)[l.1.2]? = some p ∧ g = p.moved (D l.2) (V l.2)) labels
        (mergedGas rho pbox gasOf V (offs.map fun k => (k, D k)) ss R) ∧
      ∀ (S i : Nat) (k : V3 Int), ((S, i), k) ∈ labels ↔ S ∈ ss ∧ k ∈ offs ∧ ∃ p, (gasOf S)[i]? = some p ∧ InReach (pbox R) (rho R) (p.x.addv (D k)) := by
  obtain ⟨labels, l1, l2, l3⟩ := gas_images rho pbox gasOf V (odd_zero V H.oddV) (offs.map fun k => (k, D k)) ss H.images R hR
  have hD' : ∀ l ∈ labels, l.2.2.2 = D l.2.2.1 := by
    rintro ⟨S, i, sh⟩ hl
    obtain ⟨k, -, rfl⟩ := List.mem_map.1 ((l3 S i sh).1 hl).2.1
    rfl
  have hpos : ∀ S i : Nat, (posOf gasOf S)[i]? = ((gasOf S)[i]?).map fun g : Gas K => (g.x, g.h) := by
    intro S i; unfold posOf; rw [List.getElem?_map]
  refine ⟨labels.map fun l => ((l.1, l.2.1), l.2.2.1), ?_, ?_, ?_⟩
  · refine List.Nodup.map_on ?_ l1
    rintro ⟨S, i, a, b⟩ h1 ⟨S', i', a', b'⟩ h2 e
    simp only [Prod.mk.injEq] at e
    obtain ⟨⟨rfl, rfl⟩, rfl⟩ := e
    have e1 := hD' _ h1
    have e2 := hD' _ h2
    simp only at e1 e2
    rw [e1, e2]
  · rw [List.forall₂_map_left_iff]
    clear l1 l3
    generalize mergedGas rho pbox gasOf V (offs.map fun k => (k, D k)) ss R = mg at l2
    induction l2 with
    | nil => exact List.Forall₂.nil
    | @cons l q ls qs h1 h2 ih =>
      refine List.Forall₂.cons ?_ (ih fun x hx => hD' x (List.mem_cons_of_mem _ hx))
      obtain ⟨p, a, b⟩ := h1
      exact ⟨p, a, by rw [b, hD' l List.mem_cons_self]⟩
  · intro S i k
    constructor
    · intro h
      obtain ⟨⟨S', i', sh⟩, hl, e⟩ := List.mem_map.1 h
      simp only [Prod.mk.injEq] at e
      obtain ⟨⟨rfl, rfl⟩, rfl⟩ := e
      have hd := hD' _ hl
      obtain ⟨a, b, p, c, e⟩ := (l3 S' i' sh).1 hl
      dsimp only at hd
      rw [hd] at e
      obtain ⟨k, hk, rfl⟩ := List.mem_map.1 b
      rw [hpos] at c
      rcases hg : (gasOf S')[i']? with _ | g
      · rw [hg] at c; cases c
      · rw [hg, Option.map_some, Option.some.injEq] at c
        subst c
        exact ⟨a, hk, g, rfl, e⟩
    · rintro ⟨hS, hk, p, hp, hin⟩
      exact List.mem_map.2 ⟨(S, i, (k, D k)), (l3 _ _ _).2 ⟨hS, List.mem_map.2 ⟨k, hk, rfl⟩, (p.x, p.h), by rw [hpos, hp]; rfl, hin⟩, rfl⟩

/-- A pair that is not beyond the cut-off is in reach. -/
theorem near_reach (H : SphOk C rho pbox gasOf offs D V ss) (eos : K → K → K × K) (R : Nat) (hR : R ∈ ss) (a : Gas K) (ha : a ∈ gasOf R) (S : Nat) (hS : S ∈ ss)
    (b : Gas K) (hb : b ∈ gasOf S) (k : V3 Int) (hn : C.far (partOf eos C.visc a) (partOf eos C.visc (b.moved (D k) (V k))) = false) :
    InReach (pbox R) (rho R) (b.x.addv (D k)) := by
  have hd : ∃ r, 0 ≤ r ∧ r ≤ rho R ∧ dot (vsub a.x (b.x.addv (D k))) (vsub a.x (b.x.addv (D k))) ≤ r ^ 2 := by
    unfold Cfg.far partOf Gas.moved at hn
    simp only [Bool.and_eq_false_iff, decide_eq_false_iff_not, not_lt] at hn
    rcases hn with h | h
    · exact ⟨C.rkern * a.h, mul_nonneg H.rkern (H.gas R hR a ha).1.le, H.own R hR a ha, by linarith [show (C.rkern * a.h) ^ 2 = a.h * a.h * (C.rkern * C.rkern) by ring]⟩
    · have h' : dot (vsub a.x (b.x.addv (D k))) (vsub a.x (b.x.addv (D k))) ≤ (C.rkern * b.h) ^ 2 := by
        linarith [show (C.rkern * b.h) ^ 2 = b.h * b.h * (C.rkern * C.rkern) by ring]
      exact ⟨C.rkern * b.h, mul_nonneg H.rkern (H.gas S hS b hb).1.le, H.seen R hR S hS a ha b hb k h', h'⟩
  obtain ⟨r, r0, r1, r2⟩ := hd
  have hax := abs_of_sq_sum (a.x.x - (b.x.x + (D k).x)) (a.x.y - (b.x.y + (D k).y)) (a.x.z - (b.x.z + (D k).z)) r r0 (by
    simp only [dot, vsub, V3.addv] at r2
    calc _ = _ := by ring
      _ ≤ _ := r2)
  obtain ⟨d1, d2, d3⟩ := hax
  rw [abs_le] at d1 d2 d3
  obtain ⟨⟨x1, x2⟩, ⟨y1, y2⟩, z1, z2⟩ := H.images.inside R hR (a.x, a.h) (List.mem_map.2 ⟨a, ha, rfl⟩)
  refine ⟨⟨?_, ?_⟩, ⟨?_, ?_⟩, ?_, ?_⟩ <;> simp only [V3.subs, V3.adds, V3.addv] at * <;> linarith

/-- Particle of a label. -/
def gasAt (gasOf : Nat → List (Gas K)) (p : Nat × Nat) : Gas K := ((gasOf p.1)[p.2]?).getD ⟨⟨0, 0, 0⟩, 0, ⟨0, 0, 0⟩, 0, 0, 0⟩

/-- All particles. -/
def allGas (gasOf : Nat → List (Gas K)) (ss : List Nat) : List (Nat × Nat) := ss.flatMap fun S => (List.range (gasOf S).length).map fun i => (S, i)

omit [Field K] [LinearOrder K] [IsStrictOrderedRing K] in
theorem mem_allGas (p : Nat × Nat) : p ∈ allGas gasOf ss ↔ p.1 ∈ ss ∧ ∃ g, (gasOf p.1)[p.2]? = some g := by
  unfold allGas
  rw [List.mem_flatMap]
  constructor
  · rintro ⟨S, hS, h⟩
    obtain ⟨i, hi, rfl⟩ := List.mem_map.1 h
    exact ⟨hS, _, List.getElem?_eq_getElem (List.mem_range.1 hi)⟩
  · rintro ⟨h1, g, h2⟩
    exact ⟨p.1, h1, List.mem_map.2 ⟨p.2, List.mem_range.2 (List.getElem?_eq_some_iff.1 h2).1, rfl⟩⟩

theorem gasAt_of {p : Nat × Nat} {g : Gas K} (h : (gasOf p.1)[p.2]? = some g) : gasAt gasOf p = g := by
  unfold gasAt; rw [h]; rfl

/-- The offsets and their opposites. -/
noncomputable def offSet (offs : List (V3 Int)) : Finset (V3 Int) := by
  classical
  exact (offs ++ offs.map ineg).toFinset

theorem mem_offSet (k : V3 Int) : k ∈ offSet offs ↔ k ∈ offs ∨ ineg k ∈ offs := by
  classical
  unfold offSet
  rw [List.mem_toFinset, List.mem_append, List.mem_map]
  refine or_congr_right ⟨?_, fun h => ⟨_, h, ineg_ineg k⟩⟩
  rintro ⟨a, h, rfl⟩
  rw [ineg_ineg]; exact h

open Classical in
/-- The derivatives of one particle: the sum over all images of all particles. -/
theorem item_sum (H : SphOk C rho pbox gasOf offs D V ss) (eos : K → K → K × K) (htol : K) (Hh : Nat → Nat → K) (cache : Nat → ObjCache)
    (Ca : CachesOk C htol (mergedGas rho pbox gasOf V (offs.map fun k => (k, D k)) ss) gasOf Hh cache ss) (p : Nat × Nat) (hp : p ∈ allGas gasOf ss) :
    ∃ w, C.item (gasBufs eos (mergedGas rho pbox gasOf V (offs.map fun k => (k, D k)) ss p.1)) (cache p.1) p.2 = some w ∧ ∀ φ, Additive φ → φ w =
      ∑ q ∈ (allGas gasOf ss).toFinset, ∑ k ∈ offSet offs, φ (C.pair (partOf eos C.visc (gasAt gasOf p)) (partOf eos C.visc ((gasAt gasOf q).moved (D k) (V k)))) := by
  obtain ⟨R, i⟩ := p
  obtain ⟨hR, a, ha⟩ := (mem_allGas _).1 hp
  dsimp only at hR ha ⊢
  have eA : gasAt gasOf (R, i) = a := gasAt_of ha
  rw [eA]
  have ham := List.mem_of_getElem? ha
  have hilt := (List.getElem?_eq_some_iff.1 ha).1
  obtain ⟨labels, l1, l2, l3⟩ := gas_lattice H R hR
  obtain ⟨ct, cl, cs⟩ := Ca
  have cl := cl R hR
  have cs := cs R hR (List.ne_nil_of_mem ham)
  have hpre : (mergedGas rho pbox gasOf V (offs.map fun k => (k, D k)) ss R)[i]? = some a := by
    unfold mergedGas
    rw [List.getElem?_append_left hilt]; exact ha
  have hlen : (gasOf R).length ≤ (mergedGas rho pbox gasOf V (offs.map fun k => (k, D k)) ss R).length := by
    unfold mergedGas
    rw [List.length_append]; omega
  have hmem : ∀ g ∈ mergedGas rho pbox gasOf V (offs.map fun k => (k, D k)) ss R, ∃ l ∈ labels, ∃ p, (gasOf l.1.1)[l.1.2]? = some p ∧ g = p.moved (D l.2) (V l.2) := by
    intro g hg
    obtain ⟨j, hj, rfl⟩ := List.mem_iff_getElem.1 hg
    have hj' : j < labels.length := by rw [l2.length_eq]; exact hj
    exact ⟨labels[j], List.getElem_mem hj', l2.get hj' hj⟩
  generalize mergedGas rho pbox gasOf V (offs.map fun k => (k, D k)) ss R = mg at l2 cl cs hpre hlen hmem ⊢
  have hX : ∀ (j : Nat) g, mg[j]? = some g → (mg.map (·.x)).getD j (⟨0, 0, 0⟩ : V3 K) = g.x := by
    intro j g hj
    rw [List.getD_eq_getElem?_getD, List.getElem?_map, hj]; rfl
  obtain ⟨l, c1, c2, c3⟩ := C54_exact htol C.rkern ct H.rkern _ (Hh R) _ _ hlen (fun j hj => (cl j _ (List.getElem?_eq_getElem hj)).1) (cache R) cs i hilt
  have hrho : ∀ h : K, 0 < h → 0 < rhoH C.pmass h C.hfact := by
    intro h hh
    have := div_pos H.mass.2 hh
    exact mul_pos (mul_pos (mul_pos H.mass.1 this) this) this
  have hbad : ∀ g : Gas K, 0 < g.h ∧ g.omega ≠ 0 → C.bad (partOf eos C.visc g) = false := by
    rintro g ⟨h1, h2⟩
    unfold Cfg.bad partOf
    simp only [Bool.or_eq_false_iff, decide_eq_false_iff_not]
    exact ⟨h1.ne', mul_ne_zero h2 (hrho _ h1).ne'⟩
  have hgas : ∀ g ∈ mg, 0 < g.h ∧ g.omega ≠ 0 := by
    intro g hg
    obtain ⟨lb, hlb, p, p1, rfl⟩ := hmem g hg
    exact H.gas lb.1.1 ((l3 _ _ _).1 hlb).1 p (List.mem_of_getElem? p1)
  let P : Nat → Part K := fun b => partOf eos C.visc ((mg[b]?).getD a)
  have hloop : ∀ b ∈ l, (gasBufs eos mg).get C.visc b = some (P b) ∧ C.bad (P b) = false ∧
      rhoH C.pmass (partOf eos C.visc a).h C.hfact + rhoH C.pmass (P b).h C.hfact ≠ 0 := by
    intro b hb
    have hlt := ((c3 b).1 hb).1
    have e : mg[b]? = some mg[b] := List.getElem?_eq_getElem hlt
    have hP : P b = partOf eos C.visc mg[b] := by
      show partOf eos C.visc ((mg[b]?).getD a) = _
      rw [e]; rfl
    rw [hP]
    have hg := hgas _ (List.getElem_mem hlt)
    exact ⟨gasBufs_get eos C.visc mg b _ e, hbad _ hg, (add_pos (hrho a.h (H.gas R hR a ham).1) (hrho _ hg.1)).ne'⟩
  have hz0 : Additive (fun _ : V3 K × K => (0 : K)) := ⟨rfl, fun _ _ => by simp⟩
  obtain ⟨w, w1, -⟩ := loop_sum C _ hz0 (partOf eos C.visc a) (fun b => (gasBufs eos mg).get C.visc b) P l (⟨0, 0, 0⟩, 0) hloop
  refine ⟨w, ?_, fun φ hφ => ?_⟩
  · unfold Cfg.item
    rw [gasBufs_get eos C.visc mg i a hpre, c1]
    simp only [Option.bind_eq_bind, Option.bind_some, hbad a (H.gas R hR a ham), Bool.false_eq_true, if_false]
    exact w1
  · obtain ⟨w', w1', w2⟩ := loop_sum C φ hφ (partOf eos C.visc a) (fun b => (gasBufs eos mg).get C.visc b) P l (⟨0, 0, 0⟩, 0) hloop
    have : w = w' := Option.some.inj (w1.symm.trans w1')
    subst this
    rw [w2, hφ.zero, zero_add]
    -- beyond the list nothing interacts
    rw [sum_list_range l mg.length c2 (fun b hb => ((c3 b).1 hb).1) (fun b => φ (C.pair (partOf eos C.visc a) (P b))) (by
      intro b hlt hnb
      have e : mg[b]? = some mg[b] := List.getElem?_eq_getElem hlt
      have hP : P b = partOf eos C.visc mg[b] := by
        show partOf eos C.visc ((mg[b]?).getD a) = _
        rw [e]; rfl
      have hnk : ¬ inKernel htol C.rkern (fun i => (mg.map (·.x)).getD i ⟨0, 0, 0⟩) (Hh R) i b := fun h => hnb ((c3 b).2 ⟨hlt, h⟩)
      have hf : C.far (partOf eos C.visc a) (P b) = true := by
        by_contra hc
        rw [Bool.not_eq_true, hP] at hc
        apply hnk
        unfold inKernel
        dsimp only
        rw [hX i a hpre, hX b _ e]
        unfold Cfg.far partOf at hc
        simp only [Bool.and_eq_false_iff, decide_eq_false_iff_not, not_lt] at hc
        simp only [dot, vsub] at hc
        have key : ∀ h hh : K, 0 ≤ h → h ≤ htol * hh → hh ≤ max (Hh R i) (Hh R b) → h * h * (C.rkern * C.rkern) ≤ (C.rkern * (htol * max (Hh R i) (Hh R b))) ^ 2 := by
          intro h hh h0 h1 h2
          have h3 : h ≤ htol * max (Hh R i) (Hh R b) := h1.trans (mul_le_mul_of_nonneg_left h2 ct)
          have h4 := mul_le_mul_of_nonneg_left h3 H.rkern
          have h5 : 0 ≤ C.rkern * h := mul_nonneg H.rkern h0
          calc h * h * (C.rkern * C.rkern) = (C.rkern * h) * (C.rkern * h) := by ring
            _ ≤ (C.rkern * (htol * max (Hh R i) (Hh R b))) * (C.rkern * (htol * max (Hh R i) (Hh R b))) := mul_le_mul h4 h4 h5 (h5.trans h4)
            _ = _ := by ring
        have hdd : (a.x.x - mg[b].x.x) ^ 2 + (a.x.y - mg[b].x.y) ^ 2 + (a.x.z - mg[b].x.z) ^ 2 =
          (a.x.x - mg[b].x.x) * (a.x.x - mg[b].x.x) + (a.x.y - mg[b].x.y) * (a.x.y - mg[b].x.y) + (a.x.z - mg[b].x.z) * (a.x.z - mg[b].x.z) := by ring
        rw [hdd]
        rcases hc with hc | hc
        · exact hc.trans (key a.h (Hh R i) (H.gas R hR a ham).1.le (cl i a hpre).2 (le_max_left _ _))
        · exact hc.trans (key _ (Hh R b) (hgas _ (List.getElem_mem hlt)).1.le (cl b _ e).2 (le_max_right _ _))
      rw [Cfg.pair, if_pos hf, hφ.zero])]
    -- relabel
    have hre : ∑ b ∈ Finset.range mg.length, φ (C.pair (partOf eos C.visc a) (P b)) =
        (labels.map fun lb => φ (C.pair (partOf eos C.visc a) (partOf eos C.visc ((gasAt gasOf lb.1).moved (D lb.2) (V lb.2))))).sum := by
      rw [show Finset.range mg.length = (List.range mg.length).toFinset by ext x; simp, List.sum_toFinset _ List.nodup_range]
      congr 1
      refine List.ext_getElem? fun j => ?_
      rw [List.getElem?_map, List.getElem?_map]
      by_cases hj : j < mg.length
      · have hj' : j < labels.length := by rw [l2.length_eq]; exact hj
        rw [List.getElem?_range hj, List.getElem?_eq_getElem hj', Option.map_some, Option.map_some]
        obtain ⟨p, p1, p2⟩ := l2.get hj' hj
        simp only [List.get_eq_getElem] at p1 p2
        have e : mg[j]? = some mg[j] := List.getElem?_eq_getElem hj
        show some (φ (C.pair _ (partOf eos C.visc ((mg[j]?).getD a)))) = _
        rw [e, Option.getD_some, p2, gasAt_of p1]
      · rw [List.getElem?_eq_none (by rw [List.length_range]; omega), List.getElem?_eq_none (by rw [l2.length_eq]; omega)]
        rfl
    rw [hre, ← List.sum_toFinset _ l1, ← Finset.sum_product']
    refine Finset.sum_subset ?_ ?_
    · rintro ⟨⟨S, j⟩, k⟩ hl
      obtain ⟨h1, h2, g, h3, -⟩ := (l3 S j k).1 (List.mem_toFinset.1 hl)
      exact Finset.mem_product.2 ⟨List.mem_toFinset.2 ((mem_allGas _).2 ⟨h1, g, h3⟩), (mem_offSet _).2 (Or.inl h2)⟩
    · rintro ⟨⟨S, j⟩, k⟩ hl hnl
      obtain ⟨hq, hk⟩ := Finset.mem_product.1 hl
      obtain ⟨hS, b, hb⟩ := (mem_allGas _).1 (List.mem_toFinset.1 hq)
      dsimp only at hS hb ⊢
      rw [gasAt_of (p := (S, j)) hb]
      by_cases hf : C.far (partOf eos C.visc a) (partOf eos C.visc (b.moved (D k) (V k))) = true
      · rw [Cfg.pair, if_pos hf, hφ.zero]
      · exfalso
        rw [Bool.not_eq_true] at hf
        have hin := near_reach H eos R hR a ham S hS b (List.mem_of_getElem? hb) k hf
        exact hnl (List.mem_toFinset.2 ((l3 S j k).2 ⟨hS, ((mem_offSet _).1 hk).elim id fun h => H.all R hR S hS b (List.mem_of_getElem? hb) k h hin, b, hb, hin⟩))

theorem mirror (H : SphOk C rho pbox gasOf offs D V ss) (eos : K → K → K × K) (a b : Gas K) (k : V3 Int) :
    Mirror (partOf eos C.visc a) (partOf eos C.visc b) (partOf eos C.visc (a.moved (D (ineg k)) (V (ineg k)))) (partOf eos C.visc (b.moved (D k) (V k))) := by
  refine ⟨⟨rfl, rfl, rfl, rfl, rfl, rfl⟩, ⟨rfl, rfl, rfl, rfl, rfl, rfl⟩, ?_, ?_⟩
  · apply v3_ext <;> simp only [partOf, Gas.moved, H.oddD, vsub, vneg, V3.addv] <;> ring
  · apply v3_ext <;> simp only [partOf, Gas.moved, H.oddV, vsub, vneg, V3.addv] <;> ring

/-- Specification: the sum over all particles of all patches of a quantity of the particle and its derivatives. -/
def sumAll (ss : List Nat) (gasOf : Nat → List (Gas K)) (out : Nat → List (V3 K × K)) (q : Gas K → V3 K × K → K) : K :=
  (ss.flatMap fun R => ((gasOf R).zip (out R)).map fun x => q x.1 x.2).sum

theorem derivs_run (H : SphOk C rho pbox gasOf offs D V ss) (eos : K → K → K × K) (htol : K) (Hh : Nat → Nat → K) (cache : Nat → ObjCache)
    (Ca : CachesOk C htol (mergedGas rho pbox gasOf V (offs.map fun k => (k, D k)) ss) gasOf Hh cache ss) :
    ∃ out : Nat → List (V3 K × K), (∀ R ∈ ss, C.derivs (gasBufs eos (mergedGas rho pbox gasOf V (offs.map fun k => (k, D k)) ss R)) (cache R) (gasOf R).length = some (out R) ∧
        (out R).length = (gasOf R).length) ∧
      ∀ q : Gas K → V3 K × K → K, (∀ g, Additive (q g)) →
        (∀ R ∈ ss, ∀ S ∈ ss, ∀ a ∈ gasOf R, ∀ b ∈ gasOf S, ∀ k, q a (C.near (partOf eos C.visc a) (partOf eos C.visc (b.moved (D k) (V k)))) =
          - q b (C.near (partOf eos C.visc b) (partOf eos C.visc (a.moved (D (ineg k)) (V (ineg k)))))) → sumAll ss gasOf out q = 0 := by
  classical
  have hitem : ∀ p : Nat × Nat, ∃ w, p ∈ allGas gasOf ss → C.item (gasBufs eos (mergedGas rho pbox gasOf V (offs.map fun k => (k, D k)) ss p.1)) (cache p.1) p.2 = some w ∧
      ∀ φ, Additive φ → φ w = ∑ q ∈ (allGas gasOf ss).toFinset, ∑ k ∈ offSet offs,
        φ (C.pair (partOf eos C.visc (gasAt gasOf p)) (partOf eos C.visc ((gasAt gasOf q).moved (D k) (V k)))) := by
    intro p
    by_cases hp : p ∈ allGas gasOf ss
    · obtain ⟨w, h⟩ := item_sum H eos htol Hh cache Ca p hp
      exact ⟨w, fun _ => h⟩
    · exact ⟨(⟨0, 0, 0⟩, 0), fun h => absurd h hp⟩
  choose w hw using hitem
  have hin : ∀ R ∈ ss, ∀ i < (gasOf R).length, (R, i) ∈ allGas gasOf ss := fun R hR i hi => (mem_allGas _).2 ⟨hR, _, List.getElem?_eq_getElem hi⟩
  refine ⟨fun R => (List.range (gasOf R).length).map fun i => w (R, i), fun R hR => ⟨?_, by rw [List.length_map, List.length_range]⟩, fun q hq hanti => ?_⟩
  · unfold Cfg.derivs
    exact mapM_range_some _ _ _ fun i hi => (hw (R, i) (hin R hR i hi)).1
  · have hs : sumAll ss gasOf (fun R => (List.range (gasOf R).length).map fun i => w (R, i)) q = ∑ p ∈ (allGas gasOf ss).toFinset, q (gasAt gasOf p) (w p) := by
      have hnd : (allGas gasOf ss).Nodup := by
        unfold allGas
        rw [List.nodup_flatMap]
        refine ⟨fun S _ => List.Nodup.map (fun a b h => by simpa using h) List.nodup_range, H.images.ids.imp fun {a b} hab => ?_⟩
        intro x h1 h2
        obtain ⟨_, -, rfl⟩ := List.mem_map.1 h1
        obtain ⟨_, -, e⟩ := List.mem_map.1 h2
        exact hab (congrArg Prod.fst e).symm
      rw [List.sum_toFinset _ hnd]
      unfold sumAll allGas
      rw [List.map_flatMap]
      congr 1
      refine List.flatMap_congr fun R hR => ?_
      rw [List.map_map]
      refine List.ext_getElem? fun j => ?_
      by_cases hj : j < (gasOf R).length
      · have e : (gasOf R)[j]? = some (gasOf R)[j] := List.getElem?_eq_getElem hj
        have hgat : gasAt gasOf (R, j) = (gasOf R)[j] := gasAt_of (p := (R, j)) e
        rw [List.getElem?_map, List.getElem?_map, List.getElem?_range hj, List.zip, List.getElem?_zipWith, e, List.getElem?_map, List.getElem?_range hj]
        simp only [Option.map_some, Function.comp_apply, hgat]
      · rw [List.getElem?_eq_none (by simp; omega), List.getElem?_eq_none (by simp; omega)]
    rw [hs]
    have h1 : ∀ p ∈ (allGas gasOf ss).toFinset, q (gasAt gasOf p) (w p) = ∑ p' ∈ (allGas gasOf ss).toFinset, ∑ k ∈ offSet offs,
        q (gasAt gasOf p) (C.pair (partOf eos C.visc (gasAt gasOf p)) (partOf eos C.visc ((gasAt gasOf p').moved (D k) (V k)))) :=
      fun p hp => (hw p (List.mem_toFinset.1 hp)).2 _ (hq _)
    rw [Finset.sum_congr rfl h1]
    refine antisym_sum _ _ ineg (fun k hk => ?_) ineg_ineg _ fun p hp p' hp' k _ => ?_
    · rw [mem_offSet] at hk ⊢
      rw [ineg_ineg]
      exact hk.symm
    · obtain ⟨hR, a, ha⟩ := (mem_allGas _).1 (List.mem_toFinset.1 hp)
      obtain ⟨hS, b, hb⟩ := (mem_allGas _).1 (List.mem_toFinset.1 hp')
      rw [gasAt_of ha, gasAt_of hb]
      have hfm := far_mirror C (mirror H eos a b k)
      unfold Cfg.pair
      rw [hfm]
      split
      · rw [(hq a).zero, (hq b).zero, neg_zero]
      · exact hanti _ hR _ hS a (List.mem_of_getElem? ha) b (List.mem_of_getElem? hb) k

end
end Shamrock.Sph
