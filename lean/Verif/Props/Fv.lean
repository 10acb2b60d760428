import Verif.Proof.FvFlux
import Verif.Props.AmrGraph
/-! C59: the finite volume update. The specification (`volume`, `faceArea`, `outflow`, `faceStates`) is at the head of Proof/FvMesh.lean, `Antisym`, `Patchwork`
at the head of Proof/FvCons.lean, `eulerFlux`, `normal` at the head of Proof/FvFlux.lean. -/
namespace Shamrock.Fv
open Amr

/-! ### The fluxes -/

/-- C59 (Rusanov). With any rounding that commutes with the sign, any square root and any states: the flux seen from one side of a face is exactly the opposite
of the one seen from the other side. -/
theorem C59_rusanov_antisym (A : Ar) (h : A.Odd) (g : ℚ) (dir : Nat) (hd : dir < 6) (p q : PState) :
    A.flux g .rusanov (opp dir) q p = (A.flux g .rusanov dir p q).neg :=
  along_antisym _ dir hd _ _ (rusanov_mirror h g _ _)

/-- C59 (HLL). In exact arithmetic with a positive square root, for gases of positive density and pressure. -/
theorem C59_hll_antisym (s : ℚ → ℚ) (hs : ∀ x, 0 < x → 0 < s x) (g : ℚ) (hg : 1 < g) (dir : Nat) (hd : dir < 6) (p q : PState) (hp : p.Phys) (hq : q.Phys) :
    (exact s).flux g .hll (opp dir) q p = ((exact s).flux g .hll dir p q).neg :=
  along_antisym _ dir hd _ _ (hll_ok s hs g hg dir hd p q hp hq)

/-- C59 (HLLC). In exact arithmetic, when the wave speeds that the solver estimates are in order. -/
theorem C59_hllc_antisym (s : ℚ → ℚ) (g : ℚ) (dir : Nat) (hd : dir < 6) (p q : PState)
    (ho : ((exact s).waves g dir p q).1 < ((exact s).waves g dir p q).2.1 ∧ ((exact s).waves g dir p q).2.1 < ((exact s).waves g dir p q).2.2) :
    (exact s).flux g .hllc (opp dir) q p = ((exact s).flux g .hllc dir p q).neg :=
  along_antisym _ dir hd _ _ (hllc_mirror s g _ _ (hllcOk_of_order ho.1 ho.2))

/-- A square root on the numbers used below. -/
def fsq (x : ℚ) : ℚ := if x = 4 then 2 else if x = 1 then 1 else max 1 x

theorem fsq_pos : ∀ x, 0 < x → 0 < fsq x := by
  intro x _
  unfold fsq
  split
  · norm_num
  · split
    · norm_num
    · exact lt_of_lt_of_le (by norm_num) (le_max_left 1 x)

/-- Two streams of gas at Mach 2.5 that run into each other. -/
def jetL : PState := ⟨7 / 5, 1, ⟨5 / 2, 0, 0⟩⟩
def jetR : PState := ⟨7 / 5, 1, ⟨-(5 / 2), 0, 0⟩⟩

/-- C59 (defect of HLLC). For two streams that collide at Mach 2.5 (same density, same pressure; the square roots taken are exact) the left estimate is positive
and the right one negative: each side takes its own flux, both cells lose mass. -/
theorem C59_hllc_defect : jetL.Phys ∧ jetR.Phys ∧ ((exact fsq).flux (7 / 5) .hllc 0 jetL jetR).rho = 7 / 2 ∧ ((exact fsq).flux (7 / 5) .hllc 1 jetR jetL).rho = 7 / 2 ∧
    (exact fsq).waves (7 / 5) 0 jetL jetR = (1 / 2, 0, -(1 / 2)) := by
  unfold PState.Phys; decide +kernel

/-- C59 (dust). The two dust solvers, with any rounding that commutes with the sign and any states. -/
theorem C59_dust_antisym (A : Ar) (h : A.Odd) (hb : Bool) (dir : Nat) (hd : dir < 6) (p q : DState) :
    A.dustFlux hb (opp dir) q p = (A.dustFlux hb dir p q).neg := by
  unfold Ar.dustFlux
  cases hb
  · exact dAlong_antisym _ (dHll_mirror h) dir hd _ _
  · exact dAlong_antisym _ (hb_mirror h) dir hd _ _

/-- C59 (limitation of the Huang and Bai flux). Dust that moves towards a cell at rest does not enter it. -/
theorem C59_hb_rest_defect : ((exact fsq).dustFlux true 0 ⟨1, ⟨0, 0, 0⟩⟩ ⟨1, ⟨-1, 0, 0⟩⟩) = ⟨0, ⟨0, 0, 0⟩⟩ ∧
    ((exact fsq).dustFlux false 0 ⟨1, ⟨0, 0, 0⟩⟩ ⟨1, ⟨-1, 0, 0⟩⟩).rho = -(1 / 2) := by decide +kernel

/-- C59 (consistency). Between two equal states each of the three solvers gives the flux of the Euler equations through the face, in each of the six directions. -/
theorem C59_consistent (s : ℚ → ℚ) (hs : ∀ x, 0 < x → 0 < s x) (g : ℚ) (hg : 1 < g) (sol : Solver) (dir : Nat) (hd : dir < 6) (p : PState) (hp : p.Phys) :
    (exact s).flux g sol dir p p = eulerFlux g p (normal dir) := by
  unfold Ar.flux
  apply along_same s g hg _ dir hd p (ne_of_gt hp.1)
  have hr := rot_cons s g dir hd p
  have hP : (⟨p.rho, p.press, turn dir p.vel⟩ : PState).Phys := hp
  have hb : (exact s).consToPrim g (rot dir ((exact s).primToCons g p)) = ⟨p.rho, p.press, turn dir p.vel⟩ := by
    rw [hr, round_trip s g (ne_of_gt hg) ⟨p.rho, p.press, turn dir p.vel⟩ (ne_of_gt hp.1)]
  have hc := sound_pos s hs g hg _ hP
  rw [← hb] at hc
  have hrho : 0 < (rot dir ((exact s).primToCons g p)).rho := by rw [hr]; exact hp.1
  cases sol
  · exact rusanov_same s g _
  · exact hll_same s g _ hc
  · exact hllc_same s g (ne_of_gt hg) _ hrho (by rw [hb]; exact hp.2) hc

/-- C59 (change of variables). Primitive to conserved and back, and the other way round. -/
theorem C59_round_trip (s : ℚ → ℚ) (g : ℚ) (hg : g ≠ 1) : (∀ p : PState, p.rho ≠ 0 → (exact s).consToPrim g ((exact s).primToCons g p) = p) ∧
    ∀ c : CState, c.rho ≠ 0 → (exact s).primToCons g ((exact s).consToPrim g c) = c :=
  ⟨fun p hp => round_trip s g hg p hp, fun c hc => round_trip' s g hg c hc⟩

/-! ### The update -/

/-- A mesh of cubic blocks, of any sizes, that do not overlap, with fewer than 2^32 links. -/
structure MeshIn (env : BVHEnv Int) (bs : List Box) (lo hi : V3 Int) : Prop where
  tree : TreeIn env bs lo hi
  sep : Separate bs
  cube : ∀ b ∈ bs, Cube2 b
  pairs : ∀ dir < 6, facePairs dir bs < 2 ^ 32 ∧ facePairs dir (cells bs) < 2 ^ 32

/-- The cell graphs in the six directions are those that the solver builds for the mesh (C58). -/
def Built (env : BVHEnv Int) (bs : List Box) (level : Nat) (g : Nat → NGraph) : Prop :=
  ∃ t, buildTree env bs level = .ok t ∧ ∀ dir < 6, ∃ junk sched junk' sched' junk2 sched2 gb,
    blockGraph junk sched bs t dir = some gb ∧ cellGraph junk' sched' junk2 sched2 bs gb dir = some (g dir)

theorem built_rows {env : BVHEnv Int} {bs : List Box} {lo hi : V3 Int} (H : MeshIn env bs lo hi) {level : Nat} {g : Nat → NGraph} (hg : Built env bs level g) :
    ∃ C : Nat → Nat → List Nat, (∀ dir < 6, GraphOf (g dir) (bs.length * 8) (C dir)) ∧ ∀ dir < 6, ∀ c < bs.length * 8, IsRow dir (cells bs) c (C dir c) := by
  obtain ⟨t, h1, h2⟩ := tree_ok env bs lo hi H.tree level
  obtain ⟨t', k1, k2⟩ := hg
  rw [h1, Res.ok.injEq] at k1
  subst k1
  have : ∀ dir, ∃ C : Nat → List Nat, dir < 6 → GraphOf (g dir) (bs.length * 8) C ∧ ∀ c < bs.length * 8, IsRow dir (cells bs) c (C c) := by
    intro dir
    by_cases hd : dir < 6
    · obtain ⟨R, r1, r2⟩ := blockGraph_ok t H.sep H.tree.vol h2 dir (H.pairs dir hd).1
      obtain ⟨C, c1, c2⟩ := cellGraph_ok H.sep (fun b hb => cube_wide (H.cube b hb)) R dir r1 (H.pairs dir hd).2
      obtain ⟨junk, sched, junk', sched', junk2, sched2, gb, e1, e2⟩ := k2 dir hd
      obtain ⟨gb', f1, f2⟩ := r2 junk sched
      rw [e1, Option.some.injEq] at f1
      subst f1
      obtain ⟨gc, f3, f4, _⟩ := c2 gb f2 junk' sched' junk2 sched2
      rw [e2, Option.some.injEq] at f3
      subst f3
      exact ⟨C, fun _ => ⟨f4, c1⟩⟩
    · exact ⟨fun _ => [], fun h => absurd h hd⟩
  choose C hC using this
  exact ⟨C, fun dir hd => (hC dir hd).1, fun dir hd => (hC dir hd).2⟩

/-- C59 (the graphs exist). -/
theorem C59_built {env : BVHEnv Int} {bs : List Box} {lo hi : V3 Int} (H : MeshIn env bs lo hi) (level : Nat) : ∃ g, Built env bs level g := by
  obtain ⟨t, h1, h2⟩ := tree_ok env bs lo hi H.tree level
  have : ∀ dir, ∃ gc, dir < 6 → ∃ junk sched junk' sched' junk2 sched2 gb, blockGraph junk sched bs t dir = some gb ∧ cellGraph junk' sched' junk2 sched2 bs gb dir = some gc := by
    intro dir
    by_cases hd : dir < 6
    · obtain ⟨R, r1, r2⟩ := blockGraph_ok t H.sep H.tree.vol h2 dir (H.pairs dir hd).1
      obtain ⟨C, c1, c2⟩ := cellGraph_ok H.sep (fun b hb => cube_wide (H.cube b hb)) R dir r1 (H.pairs dir hd).2
      obtain ⟨gb, f1, f2⟩ := r2 (fun i => i) []
      obtain ⟨gc, f3, _, _⟩ := c2 gb f2 (fun i => i) [] (fun i => i) []
      exact ⟨gc, fun _ => ⟨_, _, _, _, _, _, gb, f1, f3⟩⟩
    · exact ⟨⟨[], [], 0, 0, []⟩, fun h => absurd h hd⟩
  choose g hg using this
  exact ⟨g, t, h1, hg⟩

/-- C59 (finite volume form). For any mesh, fields, flux function, number `n` of cells to update and schedule: the update runs within bounds, and in each cell
the volume times the rate of change of mass, energy or momentum is minus the sum, over the cells that touch it, of the flux times the area of the shared face. -/
theorem C59_rates {env : BVHEnv Int} {bs : List Box} {lo hi : V3 Int} (H : MeshIn env bs lo hi) {level : Nat} {g : Nat → NGraph} (hg : Built env bs level g)
    (F : Nat → PState → PState → CState) (gamma dtI : ℚ) {dx : ℚ} (hdx : 0 < dx) {u : List CellIn} (hu : u.length = bs.length * 8) (n : Nat)
    (hn : n ≤ bs.length * 8) (junk : Nat → PState × PState) (sched : Nat → List Nat) :
    ∃ rates, fvRates F gamma dtI dx junk sched bs g u n = some rates ∧ rates.length = n ∧ ∀ c < n, ∀ i,
      volume dx (cellD bs c) * (rates.getD c state0).q i =
        -∑ dir ∈ Finset.range 6, ∑ d ∈ Finset.range (bs.length * 8), if Faces dir (cellD bs c) (cellD bs d) then outflow F gamma dtI dx bs u i dir c d else 0 := by
  obtain ⟨C, h1, h2⟩ := built_rows H hg
  exact rates_ok F gamma dtI hdx H.cube hu g C h1 h2 n hn junk sched

/-- C59 (balance). If the flux is antisymmetric at the faces, the total content of the first `n` cells changes only by what goes through the faces they share with
the other cells. -/
theorem C59_balance {env : BVHEnv Int} {bs : List Box} {lo hi : V3 Int} (H : MeshIn env bs lo hi) {level : Nat} {g : Nat → NGraph} (hg : Built env bs level g)
    (F : Nat → PState → PState → CState) (gamma dtI : ℚ) {dx : ℚ} (hdx : 0 < dx) {u : List CellIn} (hu : u.length = bs.length * 8) (ha : Antisym F gamma dtI dx bs u)
    (n : Nat) (hn : n ≤ bs.length * 8) (junk : Nat → PState × PState) (sched : Nat → List Nat) (dt : ℚ) (old : List CState) (ho : old.length = n) :
    ∃ rates, fvRates F gamma dtI dx junk sched bs g u n = some rates ∧ ∀ i,
      ∑ c ∈ Finset.range n, volume dx (cellD bs c) * ((euler dt old rates).getD c state0).q i =
        ∑ c ∈ Finset.range n, volume dx (cellD bs c) * (old.getD c state0).q i -
        dt * ∑ c ∈ Finset.range n, ∑ dir ∈ Finset.range 6, ∑ d ∈ Finset.Ico n (bs.length * 8),
          if Faces dir (cellD bs c) (cellD bs d) then outflow F gamma dtI dx bs u i dir c d else 0 := by
  obtain ⟨rates, h1, h2, h3⟩ := C59_rates H hg F gamma dtI hdx hu n hn junk sched
  refine ⟨rates, h1, fun i => ?_⟩
  rw [← balance ha n hn i, Finset.mul_sum, ← Finset.sum_sub_distrib]
  apply Finset.sum_congr rfl
  intro c hc
  rw [euler_q dt old rates (by omega), mul_add, mul_left_comm, h3 c (Finset.mem_range.1 hc) i]
  ring

/-- C59 (periodic domain). If the flux is antisymmetric, a time step on all the patches of a periodic domain leaves the total mass, energy and momentum
unchanged: what leaves a patch enters another one. -/
theorem C59_periodic {m : Nat} {env : Nat → BVHEnv Int} {bs : Nat → List Box} {lo hi : Nat → V3 Int} (H : ∀ p < m, MeshIn (env p) (bs p) (lo p) (hi p))
    {level : Nat} {g : Nat → Nat → NGraph} (hg : ∀ p < m, Built (env p) (bs p) level (g p))
    (F : Nat → PState → PState → CState) (gamma dtI : ℚ) {dx : ℚ} (hdx : 0 < dx) {u : Nat → List CellIn} (hu : ∀ p < m, (u p).length = (bs p).length * 8)
    (ha : ∀ p < m, Antisym F gamma dtI dx (bs p) (u p)) (n : Nat → Nat) (hn : ∀ p < m, n p ≤ (bs p).length * 8) {src : Nat → Nat → Nat × Nat}
    {sh : Nat → Nat → V3 Int} (P : Patchwork m bs u n src sh) (junk : Nat → Nat → PState × PState) (sched : Nat → Nat → List Nat)
    (dt : ℚ) (old : Nat → List CState) (ho : ∀ p < m, (old p).length = n p) :
    ∃ rates : Nat → List CState, (∀ p < m, fvRates F gamma dtI dx (junk p) (sched p) (bs p) (g p) (u p) (n p) = some (rates p)) ∧ ∀ i,
      ∑ p ∈ Finset.range m, ∑ c ∈ Finset.range (n p), volume dx (cellD (bs p) c) * ((euler dt (old p) (rates p)).getD c state0).q i =
        ∑ p ∈ Finset.range m, ∑ c ∈ Finset.range (n p), volume dx (cellD (bs p) c) * ((old p).getD c state0).q i := by
  have hall : ∀ p, ∃ rates : List CState, p < m → fvRates F gamma dtI dx (junk p) (sched p) (bs p) (g p) (u p) (n p) = some rates ∧ rates.length = n p ∧ ∀ c < n p, ∀ i,
      volume dx (cellD (bs p) c) * (rates.getD c state0).q i =
        -∑ dir ∈ Finset.range 6, ∑ d ∈ Finset.range ((bs p).length * 8), if Faces dir (cellD (bs p) c) (cellD (bs p) d) then outflow F gamma dtI dx (bs p) (u p) i dir c d else 0 := by
    intro p
    by_cases hp : p < m
    · obtain ⟨r, h⟩ := C59_rates (H p hp) (hg p hp) F gamma dtI hdx (hu p hp) (n p) (hn p hp) (junk p) (sched p)
      exact ⟨r, fun _ => h⟩
    · exact ⟨[], fun h => absurd h hp⟩
  choose rates hr using hall
  refine ⟨rates, fun p hp => (hr p hp).1, fun i => ?_⟩
  have hz := periodic_zero ha hn (fun p hp b hb => cube_wide ((H p hp).cube b hb)) (fun p hp => (H p hp).sep) P i
  rw [← sub_eq_zero, ← Finset.sum_sub_distrib, ← mul_zero (-dt), ← hz, Finset.mul_sum]
  apply Finset.sum_congr rfl
  intro p hp
  rw [Finset.mem_range] at hp
  rw [← Finset.sum_sub_distrib, Finset.mul_sum]
  apply Finset.sum_congr rfl
  intro c hc
  have h2 := (hr p hp).2.1
  have h3 := ho p hp
  rw [euler_q dt (old p) (rates p) (by omega), mul_add, add_sub_cancel_left, mul_left_comm, (hr p hp).2.2 c (Finset.mem_range.1 hc) i]
  ring

/-- The face states are gases of positive density and pressure. -/
def FacesPhys (gamma dtI dx : ℚ) (bs : List Box) (u : List CellIn) : Prop :=
  ∀ dir < 6, ∀ c < bs.length * 8, ∀ d < bs.length * 8, Faces dir (cellD bs c) (cellD bs d) →
    (faceStates gamma dtI dx bs u c d).1.Phys ∧ (faceStates gamma dtI dx bs u c d).2.Phys

/-- C59 (the solvers of the code). Rusanov is antisymmetric on every mesh and fields, HLL when the face states are physical. -/
theorem C59_solvers (gamma dtI dx : ℚ) (bs : List Box) (u : List CellIn) :
    (∀ A : Ar, A.Odd → Antisym (A.flux gamma .rusanov) gamma dtI dx bs u) ∧
    (∀ s : ℚ → ℚ, (∀ x, 0 < x → 0 < s x) → 1 < gamma → FacesPhys gamma dtI dx bs u → Antisym ((exact s).flux gamma .hll) gamma dtI dx bs u) ∧
    (∀ s : ℚ → ℚ, (∀ dir < 6, ∀ c < bs.length * 8, ∀ d < bs.length * 8, Faces dir (cellD bs c) (cellD bs d) →
      let w := (exact s).waves gamma dir (faceStates gamma dtI dx bs u c d).1 (faceStates gamma dtI dx bs u c d).2
      w.1 < w.2.1 ∧ w.2.1 < w.2.2) → Antisym ((exact s).flux gamma .hllc) gamma dtI dx bs u) :=
  ⟨fun A hA dir hd c _ d _ _ => C59_rusanov_antisym A hA gamma dir hd _ _,
    fun s hs hg hp dir hd c hc d hdd hf => C59_hll_antisym s hs gamma hg dir hd _ _ (hp dir hd c hc d hdd hf).1 (hp dir hd c hc d hdd hf).2,
    fun s hw dir hd c hc d hdd hf => C59_hllc_antisym s gamma dir hd _ _ (hw dir hd c hc d hdd hf)⟩

/-! ### Meshes: the one of C58, and a block with its six periodic images -/

theorem gx_mesh : MeshIn gxEnv gxBs ⟨0, 0, 0⟩ ⟨8, 4, 4⟩ := by
  refine ⟨gx_in, gx_sep, ?_, gx_pairs⟩
  intro b hb
  simp only [gxBs, List.mem_cons, List.mem_map, List.mem_range] at hb
  rcases hb with rfl | ⟨i, _, rfl⟩
  · exact ⟨2, by norm_num, rfl, rfl, rfl⟩
  · exact ⟨1, by norm_num, rfl, rfl, rfl⟩

def fu (c : Nat) : CellIn := ⟨c + 1, 2 * c + 3, ⟨(c : ℚ) - 5, 1, -1⟩, ⟨1 / 8, 0, 0⟩, ⟨0, 1 / 8, 0⟩, ⟨1, 0, 0⟩, ⟨0, 1, 0⟩, ⟨0, 0, 1⟩⟩
def fuBs : List CellIn := (List.range 72).map fu

example : ∃ g, Built gxEnv gxBs 2 g ∧ ∃ rates, fvRates ((exact fsq).flux (5 / 3) .rusanov) (5 / 3) 0 (1 / 4) (fun _ => (jetL, jetR)) (fun _ => [1, 0, 1]) gxBs g fuBs 8 = some rates ∧
    ∀ i, ∑ c ∈ Finset.range 8, volume (1 / 4) (cellD gxBs c) * ((euler (1 / 10) (List.replicate 8 state0) rates).getD c state0).q i =
        ∑ c ∈ Finset.range 8, volume (1 / 4) (cellD gxBs c) * ((List.replicate 8 state0).getD c state0).q i -
        (1 / 10) * ∑ c ∈ Finset.range 8, ∑ dir ∈ Finset.range 6, ∑ d ∈ Finset.Ico 8 (gxBs.length * 8),
          if Faces dir (cellD gxBs c) (cellD gxBs d) then outflow ((exact fsq).flux (5 / 3) .rusanov) (5 / 3) 0 (1 / 4) gxBs fuBs i dir c d else 0 := by
  obtain ⟨g, hg⟩ := C59_built gx_mesh 2
  exact ⟨g, hg, C59_balance gx_mesh hg _ _ 0 (by norm_num) (by simp [fuBs, gxBs]) ((C59_solvers _ _ _ _ _).1 _ (odd_exact _)) 8 (by decide) _ _ _ _ (by simp)⟩

/-- The faces with the four blocks beside. -/
example : ((List.range 72).filter fun d => decide (8 ≤ d ∧ Faces 0 (cellD gxBs 1) (cellD gxBs d))).length = 4 ∧ faceArea (1 / 4) 0 (cellD gxBs 1) (cellD gxBs 8) = 1 / 16 := by
  decide +kernel

/-- One block of width 2 in a periodic box of width 2, with the six images that touch it. -/
def pxSh : Nat → V3 Int
  | 0 => ⟨0, 0, 0⟩
  | 1 => ⟨2, 0, 0⟩
  | 2 => ⟨-2, 0, 0⟩
  | 3 => ⟨0, 2, 0⟩
  | 4 => ⟨0, -2, 0⟩
  | 5 => ⟨0, 0, 2⟩
  | _ => ⟨0, 0, -2⟩

def pxBs : List Box := (List.range 7).map fun (k : Nat) => shiftBox ⟨⟨0, 0, 0⟩, ⟨2, 2, 2⟩⟩ (pxSh k)
def pxU : List CellIn := (List.range 56).map fun (d : Nat) => fu (d % 8)
def pxEnv : BVHEnv Int := ⟨fun _ _ => [], [], fun _ => 0, List.range 7, List.replicate 64 [], List.replicate 64 [], fun _ => ⟨0, 0, 0⟩, fun _ => ⟨0, 0, 0⟩⟩

theorem px_mesh : MeshIn pxEnv pxBs ⟨-2, -2, -2⟩ ⟨4, 4, 4⟩ := by
  refine ⟨⟨by decide, by decide, by decide, ?_, by decide, ?_, List.Perm.refl _, rfl, rfl⟩, ?_, ?_, by decide +kernel⟩
  · unfold IsHull; decide
  · unfold SameScale; decide
  · have key : ∀ i < pxBs.length, ∀ j < pxBs.length, i ≠ j → volMeet (pxBs.getD i box0) (pxBs.getD j box0) = false := by decide +kernel
    intro i j A B hij hA hB
    have h := key i (List.getElem?_eq_some_iff.1 hA).1 j (List.getElem?_eq_some_iff.1 hB).1 hij
    rw [List.getD_eq_getElem?_getD, List.getD_eq_getElem?_getD, hA, hB] at h
    exact (apart_iff A B).2 h
  · intro b hb
    simp only [pxBs, List.mem_map, List.mem_range] at hb
    obtain ⟨i, _, rfl⟩ := hb
    exact ⟨1, by norm_num, by simp [shiftBox]; ring, by simp [shiftBox]; ring, by simp [shiftBox]; ring⟩

def pxOp (k : Nat) : Nat := [0, 2, 1, 4, 3, 6, 5].getD k 0

def pxKey (dir c d : Nat) : Prop := Faces dir (cellD pxBs c) (cellD pxBs d) →
  c + 8 * pxOp (d / 8) < pxBs.length * 8 ∧ (c + 8 * pxOp (d / 8)) % 8 = c ∧ pxSh ((c + 8 * pxOp (d / 8)) / 8) = negV (pxSh (d / 8))

instance (dir c d : Nat) : Decidable (pxKey dir c d) := by unfold pxKey; infer_instance

theorem px_periodic : Patchwork 1 (fun _ => pxBs) (fun _ => pxU) (fun _ => 8) (fun _ d => (0, d % 8)) (fun _ d => pxSh (d / 8)) := by
  have key : ∀ dir < 6, ∀ c < 8, ∀ d < pxBs.length * 8, pxKey dir c d := by decide +kernel
  have k1 : ∀ d < pxBs.length * 8, cellD pxBs d = shiftBox (cellD pxBs (d % 8)) (pxSh (d / 8)) := by decide +kernel
  have k2 : ∀ d < pxBs.length * 8, pxU.getD d cell0 = pxU.getD (d % 8) cell0 := by decide +kernel
  refine ⟨fun _ _ d _ => ⟨Nat.zero_lt_one, Nat.mod_lt _ (by omega)⟩, fun _ _ => k1, fun _ _ d hd _ => k2 d hd, ?_⟩
  intro p hp dir h1 c h2 d h3 h4
  obtain ⟨e1, e2, e3⟩ := key dir h1 c h2 d h3 h4
  obtain rfl : p = 0 := by omega
  exact ⟨_, e1, by rw [e2], e3⟩

example : ∃ g, Built pxEnv pxBs 2 g ∧ ∃ rates : Nat → List CState,
    (∀ p < 1, fvRates ((exact fsq).flux (5 / 3) .rusanov) (5 / 3) (1 / 20) (1 / 4) (fun _ => (jetL, jetR)) (fun _ => []) pxBs g pxU 8 = some (rates p)) ∧
    ∀ i, ∑ p ∈ Finset.range 1, ∑ c ∈ Finset.range 8, volume (1 / 4) (cellD pxBs c) * ((euler (1 / 10) ((List.range 8).map fun c => ⟨c, c, ⟨1, 2, c⟩⟩) (rates p)).getD c state0).q i =
        ∑ p ∈ Finset.range 1, ∑ c ∈ Finset.range 8, volume (1 / 4) (cellD pxBs c) * (((List.range 8).map fun c => ⟨c, c, ⟨1, 2, c⟩⟩ : List CState).getD c state0).q i := by
  obtain ⟨g, hg⟩ := C59_built px_mesh 2
  exact ⟨g, hg, C59_periodic (env := fun _ => pxEnv) (lo := fun _ => ⟨-2, -2, -2⟩) (hi := fun _ => ⟨4, 4, 4⟩) (g := fun _ => g) (fun _ _ => px_mesh) (fun _ _ => hg) _ _ _ (by norm_num)
    (fun _ _ => by simp [pxU, pxBs]) (fun _ _ => (C59_solvers _ _ _ _ _).1 _ (odd_exact _)) _ (fun _ _ => by decide) px_periodic (fun _ => fun _ => (jetL, jetR)) (fun _ => fun _ => []) _ _ (fun _ _ => by simp)⟩

/-- The hypotheses of HLL and HLLC hold on the second mesh, without slopes. -/
def qu (c : Nat) : CellIn := ⟨1, 1, ⟨(c : ℚ) / 8, 0, 0⟩, ⟨0, 0, 0⟩, ⟨0, 0, 0⟩, ⟨0, 0, 0⟩, ⟨0, 0, 0⟩, ⟨0, 0, 0⟩⟩
def quU : List CellIn := (List.range 56).map fun (d : Nat) => qu (d % 8)

instance (p : PState) : Decidable p.Phys := by unfold PState.Phys; infer_instance

example : Antisym ((exact fsq).flux (5 / 3) .hll) (5 / 3) (1 / 20) (1 / 4) pxBs quU :=
  (C59_solvers _ _ _ _ _).2.1 _ fsq_pos (by norm_num) (by unfold FacesPhys; decide +kernel)

example : Antisym ((exact fsq).flux (5 / 3) .hllc) (5 / 3) (1 / 20) (1 / 4) pxBs quU :=
  (C59_solvers _ _ _ _ _).2.2 _ (by decide +kernel)

example : (exact fsq).flux (5 / 3) .hll 3 jetR jetL = ((exact fsq).flux (5 / 3) .hll 2 jetL jetR).neg :=
  C59_hll_antisym fsq fsq_pos (5 / 3) (by norm_num) 2 (by norm_num) jetL jetR (by decide +kernel) (by decide +kernel)

example : (exact fsq).flux (5 / 3) .hllc 4 jetL jetL = eulerFlux (5 / 3) jetL (normal 4) :=
  C59_consistent fsq fsq_pos (5 / 3) (by norm_num) .hllc 4 (by norm_num) jetL (by decide +kernel)

end Shamrock.Fv
