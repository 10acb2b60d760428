import Verif.Props.SphForce
import Verif.Props.SphGhostEx
/-! C62: concrete cases and defects. -/
namespace Shamrock.Sph

/-- Three particles in the two patches of `ghBox`. -/
def fxGas (R : Nat) : List (Gas ℚ) :=
  if R = 0 then [⟨⟨1/8, 1/2, 1/2⟩, 1/8, ⟨1, 0, 0⟩, 1, 1, 1⟩]
  else if R = 1 then [⟨⟨7/8, 1/2, 1/2⟩, 1/8, ⟨2, 1, 0⟩, 2, 2, 1/2⟩, ⟨⟨5/8, 7/8, 1/2⟩, 1/16, ⟨0, 0, 0⟩, 1, 1, 1⟩] else []

/-- Constants with a viscosity parameter per particle; the square root is only approximate (it is arbitrary). -/
def fxCfg : Cfg ℚ := ⟨1, 1, 2, 1, 2, fun x => (x + 1/16) * 2, fun r h => r - 2 * h - 1, .field⟩
def fxEos (h u : ℚ) : ℚ × ℚ := (u / h, u)

/-- A cache made by testing all pairs. -/
def allCache (S : SphArith ℚ) (X : Nat → V3 ℚ) (Hh : Nat → ℚ) (n N : Nat) : ObjCache :=
  (buildCache (fun _ => 0) (List.range n) ((List.range n).map fun a => (List.range N).filter fun b => sphNear S X Hh a b)).getD ⟨[], [], 0, []⟩

def fxCache (C : Cfg ℚ) (mg : List (Gas ℚ)) (n : Nat) : ObjCache :=
  allCache (exactSph 1 C.rkern) (fun i => (mg.map (·.x)).getD i ⟨0, 0, 0⟩) (fun i => (mg.map (·.h)).getD i 0) n mg.length

theorem sphPairs_le {F : Type} [LinearOrder F] (S : SphArith F) (X : Nat → V3 F) (Hh : Nat → F) (n N : Nat) : sphPairs S X Hh n N ≤ n * N := by
  unfold sphPairs
  have : ∀ l : List Nat, (l.map fun a => ((List.range N).filter fun b => sphNear S X Hh a b).length).sum ≤ l.length * N := by
    intro l
    induction l with
    | nil => simp
    | cons a l ih =>
      rw [List.map_cons, List.sum_cons, List.length_cons]
      have := List.length_filter_le (fun b => sphNear S X Hh a b) (List.range N)
      rw [List.length_range] at this
      rw [Nat.succ_mul]
      omega
  have h := this (List.range n)
  rw [List.length_range] at h
  exact h

theorem allCache_ok (S : SphArith ℚ) (X : Nat → V3 ℚ) (Hh : Nat → ℚ) (n N : Nat) (hn : 0 < n) (hs : n * N < 2 ^ 32) : NeighSpec S X Hh n N (allCache S X Hh n N) := by
  have hp := lt_of_le_of_lt (sphPairs_le S X Hh n N) hs
  obtain ⟨runs, c, h1, h2, h3⟩ := spec_of_runs S X Hh n N hn hp (fun _ => 0) (List.range n) (List.Perm.refl _)
    (fun a => some ((List.range N).filter fun b => sphNear S X Hh a b))
    (fun a _ => ⟨_, rfl, List.Nodup.filter _ List.nodup_range, fun b hb => by
      obtain ⟨b1, b2⟩ := List.mem_filter.1 hb
      exact ⟨List.mem_range.1 b1, b2⟩, fun b hb hnear _ => List.mem_filter.2 ⟨List.mem_range.2 hb, hnear⟩⟩)
  have h4 := mapM_range_some n (fun a => some ((List.range N).filter fun b => sphNear S X Hh a b)) (fun a => (List.range N).filter fun b => sphNear S X Hh a b) fun i _ => rfl
  have h5 := Option.some.inj (h4.symm.trans h1)
  unfold allCache
  rw [h5, h2]
  exact h3

/-- Such a cache meets C54. -/
theorem fxCache_ok (C : Cfg ℚ) (mg : List (Gas ℚ)) (n : Nat) (hn : 0 < n) (hs : n * mg.length < 2 ^ 32) :
    NeighSpec (exactSph 1 C.rkern) (fun i => (mg.map (·.x)).getD i ⟨0, 0, 0⟩) (fun i => (mg.map (·.h)).getD i 0) n mg.length (fxCache C mg n) :=
  allCache_ok _ _ _ n mg.length hn hs

def fxMerged (shs : List (Shift ℚ)) (V : V3 Int → V3 ℚ) : Nat → List (Gas ℚ) := mergedGas (fun _ => 1/4) ghBox fxGas V shs [0, 1]

theorem fx_caches (shs : List (Shift ℚ)) (V : V3 Int → V3 ℚ) (hh : ∀ R ∈ [0, 1], ∀ g ∈ fxMerged shs V R, 0 ≤ g.h) (hl : ∀ R ∈ [0, 1], (fxGas R).length * (fxMerged shs V R).length < 2 ^ 32) :
    CachesOk fxCfg 1 (fxMerged shs V) fxGas (fun R i => ((fxMerged shs V R).map (·.h)).getD i 0) (fun R => fxCache fxCfg (fxMerged shs V R) (fxGas R).length) [0, 1] := by
  refine ⟨zero_le_one, fun R hR i g hg => ?_, fun R hR hne => fxCache_ok fxCfg _ _ (List.length_pos_iff.2 hne) (hl R hR)⟩
  have : ((fxMerged shs V R).map (·.h)).getD i 0 = g.h := by
    rw [List.getD_eq_getElem?_getD, List.getElem?_map, hg]; rfl
  rw [this, one_mul]
  exact ⟨hh R hR g (List.mem_of_getElem? hg), le_refl _⟩

theorem fx_dom : DomainOk (fun _ => (1/4 : ℚ)) ghBox (posOf fxGas) [0, 1] ⟨0, 0, 0⟩ ⟨1, 1, 1⟩ := by
  refine ⟨?_, gh_domain.boxes, ?_, gh_domain.ids⟩
  · unfold InHalfOpen; decide +kernel
  · intro S _; exact ⟨fun _ => by decide +kernel, by decide +kernel⟩

theorem fx_gas (D : V3 Int → V3 ℚ) : GasOk fxCfg (fun _ => 1/4) fxGas D [0, 1] := by
  have h1 : ∀ R ∈ [0, 1], ∀ a ∈ fxGas R, 0 < a.h ∧ a.omega ≠ 0 ∧ fxCfg.rkern * a.h ≤ 1/4 := by decide +kernel
  exact ⟨by decide +kernel, by decide +kernel, fun S hS g hg => ⟨(h1 S hS g hg).1, (h1 S hS g hg).2.1⟩, fun R hR a ha => (h1 R hR a ha).2.2,
    fun R _ S hS a _ b hb _ _ => (h1 S hS b hb).2.2⟩

/-- The derivatives of the three particles. -/
def fxOut (shs : List (Shift ℚ)) (V : V3 Int → V3 ℚ) (R : Nat) : Option (List (V3 ℚ × ℚ)) :=
  fxCfg.derivs (gasBufs fxEos (fxMerged shs V R)) (fxCache fxCfg (fxMerged shs V R) (fxGas R).length) (fxGas R).length

/-- The hypotheses of `C62_conservation`, `C62_periodic`, `C62_shearing`, `C62_free` hold for it. -/
example : SphOk fxCfg (fun _ => 1/4) ghBox fxGas (offsets3 1 1 1) (fun k => ⟨(k.x : ℚ) * 1, (k.y : ℚ) * 1, (k.z : ℚ) * 1⟩) (fun _ => ⟨0, 0, 0⟩) [0, 1] ∧
    SphOk fxCfg (fun _ => 1/4) ghBox fxGas (shearOffsets ratTrunc ⟨⟨1, 0, 0⟩, ⟨0, 1, 0⟩, 7/4⟩ ⟨1, 1, 1⟩) (shearShift ⟨⟨1, 0, 0⟩, ⟨0, 1, 0⟩, 7/4⟩ ⟨1, 1, 1⟩)
      (shearSpeed ⟨⟨1, 0, 0⟩, ⟨0, 1, 0⟩, 7/4⟩ 3) [0, 1] ∧
    SphOk fxCfg (fun _ => 1/4) ghBox fxGas [⟨0, 0, 0⟩] (fun _ => ⟨0, 0, 0⟩) (fun _ => ⟨0, 0, 0⟩) [0, 1] :=
  ⟨(C62_periodic ⟨0, 0, 0⟩ ⟨1, 1, 1⟩ (fx_gas _) fx_dom (by decide +kernel)).1,
   (C62_shearing ⟨0, 0, 0⟩ ⟨1, 1, 1⟩ _ (fx_gas _) fx_dom (by decide +kernel) ratTrunc ratTrunc_near (Or.inl rfl) (Or.inr (Or.inl rfl)) (by decide) 3).1,
   (C62_free (fx_gas _) fx_dom.inside (by decide)).1⟩

theorem fx_run0 : fxOut (periodicShifts ⟨1, 1, 1⟩) (fun _ => ⟨0, 0, 0⟩) 0 = some [(⟨73/16384, 0, 0⟩, 209/65536)] := by decide +kernel
theorem fx_run1 : fxOut (periodicShifts ⟨1, 1, 1⟩) (fun _ => ⟨0, 0, 0⟩) 1 = some [(⟨-73/16384, 0, 0⟩, 83/65536), (⟨0, 0, 0⟩, 0)] := by decide +kernel

theorem fx_caches1 : CachesOk fxCfg 1 (fxMerged (periodicShifts ⟨1, 1, 1⟩) fun _ => ⟨0, 0, 0⟩) fxGas
    (fun R i => ((fxMerged (periodicShifts ⟨1, 1, 1⟩) (fun _ => ⟨0, 0, 0⟩) R).map (·.h)).getD i 0)
    (fun R => fxCache fxCfg (fxMerged (periodicShifts ⟨1, 1, 1⟩) (fun _ => ⟨0, 0, 0⟩) R) (fxGas R).length) [0, 1] :=
  fx_caches _ _ (by decide +kernel) (by decide +kernel)

/-- `C62_conservation` on that case: the particles near the two faces of the periodic box repel each other through the boundary, and the sums are zero. -/
example : ∃ out : Nat → List (V3 ℚ × ℚ), out 0 = [(⟨73/16384, 0, 0⟩, 209/65536)] ∧ out 1 = [(⟨-73/16384, 0, 0⟩, 83/65536), (⟨0, 0, 0⟩, 0)] ∧
    sumAcc [0, 1] fxGas out = ⟨0, 0, 0⟩ ∧ sumPower [0, 1] fxGas out = 0 := by
  obtain ⟨out, h1, h2, h3, -⟩ := C62_conservation (C62_periodic ⟨0, 0, 0⟩ ⟨1, 1, 1⟩ (fx_gas _) fx_dom (by decide +kernel)).1 fxEos 1 _ _ fx_caches1
  refine ⟨out, ?_, ?_, h2, h3 fun _ => rfl⟩
  · exact Option.some.inj ((h1 0 (by decide)).1.symm.trans fx_run0)
  · exact Option.some.inj ((h1 1 (by decide)).1.symm.trans fx_run1)

def fxA : Part ℚ := ⟨⟨1/8, 1/2, 1/2⟩, 1/8, ⟨1, 0, 0⟩, 1, 1, 8, 1, 1⟩
def fxB : Part ℚ := ⟨⟨1/4, 1/2, 1/2⟩, 1/8, ⟨0, 1, 0⟩, 2, 2, 16, 2, 1/2⟩

/-- The hypotheses of `C62_pair` and `C62_dissipation` hold for two particles that approach each other; the forces and the heating are not zero. -/
example : ∃ w w0 wc w' wc' : V3 ℚ × ℚ, fxCfg.turn fxA fxB (⟨0, 0, 0⟩, 0) = some w ∧ (inviscid fxCfg).turn fxA fxB (⟨0, 0, 0⟩, 0) = some w0 ∧
    (adiabatic fxCfg).turn fxA fxB (⟨0, 0, 0⟩, 0) = some wc ∧ fxCfg.turn fxB fxA (⟨0, 0, 0⟩, 0) = some w' ∧ (adiabatic fxCfg).turn fxB fxA (⟨0, 0, 0⟩, 0) = some wc' ∧
    w.1 ≠ ⟨0, 0, 0⟩ ∧ w0.2 < w.2 ∧ wc.2 < w.2 ∧ fxCfg.visc.alphaOf fxA = 1 :=
  ⟨(fxCfg.turn fxA fxB (⟨0, 0, 0⟩, 0)).getD (⟨0, 0, 0⟩, 0), ((inviscid fxCfg).turn fxA fxB (⟨0, 0, 0⟩, 0)).getD (⟨0, 0, 0⟩, 0),
    ((adiabatic fxCfg).turn fxA fxB (⟨0, 0, 0⟩, 0)).getD (⟨0, 0, 0⟩, 0), (fxCfg.turn fxB fxA (⟨0, 0, 0⟩, 0)).getD (⟨0, 0, 0⟩, 0),
    ((adiabatic fxCfg).turn fxB fxA (⟨0, 0, 0⟩, 0)).getD (⟨0, 0, 0⟩, 0), by decide +kernel, by decide +kernel, by decide +kernel, by decide +kernel, by decide +kernel,
    by decide +kernel, by decide +kernel, by decide +kernel, by decide +kernel⟩

/-! ### Fields of the ghosts: the patches of C56 -/

def toQ (v : V3 Int) : V3 ℚ := ⟨v.x, v.y, v.z⟩
def fzBox (c : PatchCoord) : V3 ℚ × V3 ℚ := (toQ (sgBox c).1, toQ (sgBox c).2)
def fzPbox (R : Nat) : Box ℚ := ⟨toQ (sgPbox R).lower, toQ (sgPbox R).upper⟩
def fzGas (R : Nat) : List (Gas ℚ) := (sgPs R).map fun p => ⟨toQ p.1, p.2, toQ p.1, p.2 * 3, p.2 * 5, p.2 * 7⟩
def fzWorld : List (List (Nat × PartData ℚ)) := [[10, 12, 14, 16, 100], [11, 13, 15, 17]].map fun l => l.map fun i => (i, mkPart (posOf fzGas i))

theorem fz_world : BoxNest fzBox sgTree ∧ GhostWorld sgRk fzBox sgTree fzPbox (posOf fzGas) fzWorld := by
  have W := sg_world
  have hkeys : fzWorld.map (fun d => d.map (·.1)) = sgWorld.map (fun d => d.map (·.1)) := by decide
  have hmem : ∀ R, (∃ d ∈ fzWorld, R ∈ d.map (·.1)) ↔ ∃ d ∈ sgWorld, R ∈ d.map (·.1) := by
    intro R
    have h : ∀ (w : List (List (Nat × PartData ℚ))), (∃ d ∈ w, R ∈ d.map (·.1)) ↔ ∃ l ∈ w.map (fun d => d.map (·.1)), R ∈ l := by simp
    have h' : ∀ (w : List (List (Nat × PartData Int))), (∃ d ∈ w, R ∈ d.map (·.1)) ↔ ∃ l ∈ w.map (fun d => d.map (·.1)), R ∈ l := by simp
    rw [h, h', hkeys]
  refine ⟨?_, ?_, ?_, ?_, ?_, ?_, ?_⟩
  · intro x n h1 h2 ch hch
    obtain ⟨⟨a1, a2, a3⟩, b1, b2, b3⟩ := sg_tree.1 x n h1 h2 ch hch
    simp only [fzBox, toQ, Int.cast_le]
    exact ⟨⟨a1, a2, a3⟩, b1, b2, b3⟩
  · intro d hd
    simp only [fzWorld, List.map_cons, List.map_nil, List.mem_cons, List.not_mem_nil, or_false] at hd
    rcases hd with rfl | rfl <;> simp [MapOk]
  · intro r d hr kv hkv
    match r, hr with
    | 0, hr => cases hr; simp only [List.map_cons, List.map_nil, List.mem_cons, List.not_mem_nil, or_false] at hkv; rcases hkv with rfl | rfl | rfl | rfl | rfl <;> rfl
    | 1, hr => cases hr; simp only [List.map_cons, List.map_nil, List.mem_cons, List.not_mem_nil, or_false] at hkv; rcases hkv with rfl | rfl | rfl | rfl <;> rfl
  · intro d hd kv hkv
    have hk : ∀ i ∈ ([[10, 12, 14, 16, 100], [11, 13, 15, 17]] : List (List Nat)).flatten, i < u64max := by decide
    obtain ⟨l, hl, rfl⟩ := List.mem_map.1 hd
    obtain ⟨i, hi, rfl⟩ := List.mem_map.1 hkv
    exact hk i (List.mem_flatten.2 ⟨l, hl, hi⟩)
  · intro d hd kv hkv
    obtain ⟨l, hl, rfl⟩ := List.mem_map.1 hd
    obtain ⟨i, hi, rfl⟩ := List.mem_map.1 hkv
    refine ⟨rfl, ?_⟩
    unfold posOf fzGas sgPs
    rw [List.length_map, List.length_map]
    split <;> [decide; (split <;> [decide; (split <;> decide)])]
  · intro R
    rw [hmem, W.patch]
    constructor
    · rintro ⟨b, x, n, hx, hl, e, -⟩
      exact ⟨_, x, n, hx, hl, e, rfl⟩
    · rintro ⟨b, x, n, hx, hl, e, -⟩
      exact ⟨_, x, n, hx, hl, e, rfl⟩
  · rintro R b ⟨x, n, hx, hl, rfl, rfl⟩
    have := W.boxes n.linked _ ⟨x, n, hx, hl, rfl, rfl⟩
    unfold fzPbox
    rw [← this]
    rfl

/-- The hypotheses of `C62_fields` hold, and a ghost with its fields is merged. -/
example : THist PTree.init sgTree ∧ BoxNest fzBox sgTree ∧ LeafLinks sgTree ∧ GhostWorld sgRk fzBox sgTree fzPbox (posOf fzGas) fzWorld ∧ sgSs.Pairwise (· < ·) ∧
    (∀ R, R ∈ sgSs ↔ ∃ d ∈ fzWorld, R ∈ d.map (·.1)) ∧ Enumerates [0, 1] sgTree.roots ∧ [0, 1].Nodup ∧
    (mergedGas (fun R => (sgRho R : ℚ)) fzPbox fzGas (fun _ => ⟨0, 0, 0⟩) freeShifts sgSs 10).map (·.u) = [6, 3] := by
  refine ⟨sg_hist, fz_world.1, sg_tree.2.1, fz_world.2, by decide, ?_, sg_tree.2.2.1, sg_tree.2.2.2, by decide +kernel⟩
  intro R
  simp only [fzWorld, List.map_cons, List.map_nil, List.mem_cons, List.not_mem_nil, or_false, exists_eq_or_imp, exists_eq_left, sgSs]
  omega

/-! ### A patch with small particles near a patch with large ones -/

def fyGas (R : Nat) : List (Gas ℚ) :=
  if R = 0 then [⟨⟨1/8, 1/2, 1/2⟩, 1/32, ⟨0, 0, 0⟩, 1, 1, 1⟩] else if R = 1 then [⟨⟨7/8, 1/2, 1/2⟩, 3/8, ⟨0, 0, 0⟩, 1, 1, 1⟩] else []
def fyRho (R : Nat) : ℚ := if R = 0 then 1/16 else 3/4
def fyMerged : Nat → List (Gas ℚ) := mergedGas fyRho ghBox fyGas (fun _ => ⟨0, 0, 0⟩) freeShifts [0, 1]

/-- **C62, defect.** The ghosts of a patch come from its own interaction radius (`max h` of its own particles), though the kernel uses each pair within the kernel radius
of one of the two. A large particle of patch 1 is pushed by a small one of patch 0, which does not see it: with the caches of C54, and all the other hypotheses of
`C62_conservation`, the accelerations do not sum to zero. -/
theorem C62_one_sided_defect :
    (∀ R ∈ [0, 1], ∀ a ∈ fyGas R, fxCfg.rkern * a.h ≤ fyRho R) ∧ (∀ S ∈ [0, 1], ∀ p ∈ posOf fyGas S, InHalfOpen (ghBox S).lower (ghBox S).upper p.1) ∧
    CachesOk fxCfg 1 fyMerged fyGas (fun R i => ((fyMerged R).map (·.h)).getD i 0) (fun R => fxCache fxCfg (fyMerged R) (fyGas R).length) [0, 1] ∧
    ∃ out : Nat → List (V3 ℚ × ℚ), (∀ R ∈ [0, 1], fxCfg.derivs (gasBufs fxEos (fyMerged R)) (fxCache fxCfg (fyMerged R) (fyGas R).length) (fyGas R).length = some (out R)) ∧
      sumAcc [0, 1] fyGas out ≠ ⟨0, 0, 0⟩ := by
  refine ⟨by decide +kernel, by unfold InHalfOpen; decide +kernel, ⟨zero_le_one, fun R hR i g hg => ?_, fun R hR hne => ?_⟩,
    fun R => (fxCfg.derivs (gasBufs fxEos (fyMerged R)) (fxCache fxCfg (fyMerged R) (fyGas R).length) (fyGas R).length).getD [], by decide +kernel, by decide +kernel⟩
  · have h0 : ∀ R ∈ [0, 1], ∀ g ∈ fyMerged R, 0 ≤ g.h := by decide +kernel
    have : ((fyMerged R).map (·.h)).getD i 0 = g.h := by
      rw [List.getD_eq_getElem?_getD, List.getElem?_map, hg]; rfl
    rw [this, one_mul]
    exact ⟨h0 R hR g (List.mem_of_getElem? hg), le_refl _⟩
  · have h0 : ∀ R ∈ [0, 1], (fyGas R).length * (fyMerged R).length < 2 ^ 32 := by decide +kernel
    exact fxCache_ok fxCfg _ _ (List.length_pos_iff.2 hne) (h0 R hR)

/-- **C62, defect (MHD).** The magnetic kernel takes the sound speed of `a` for the signal velocity of both particles, so that without magnetic field, where it should agree with the
other kernels, two particles with different sound speeds do not exert opposite forces. -/
theorem C62_mhd_defect : ∃ (C : Cfg ℚ) (a b : Part ℚ), 0 < a.h ∧ 0 < b.h ∧ 0 < a.omega ∧ 0 < b.omega ∧
    C.mhdAcc 1 ⟨0, 0, 0⟩ ⟨0, 0, 0⟩ b a ≠ vneg (C.mhdAcc 1 ⟨0, 0, 0⟩ ⟨0, 0, 0⟩ a b) :=
  ⟨⟨1, 1, 1, 1, 2, fun x => if x = 4 then 2 else if x = 1/64 then 1/8 else x, fun r h => r - 2 * h - 1, .field⟩, fxA, fxB, by decide +kernel, by decide +kernel, by decide +kernel, by decide +kernel, by decide +kernel⟩

end Shamrock.Sph
