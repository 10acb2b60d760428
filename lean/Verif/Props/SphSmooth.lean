import Verif.Proof.SphSmoothIter

/-!
# C65: the smoothing length iteration

Specification.  `dens K m X N a h` is the SPH density at particle `a` for the length `h`, the sum over
*all* `N` particles; `rhoH m h hfactd` the density that belongs to `h`; `resid` their difference, whose
zero the iteration seeks.  `proposal`, `accepted` and `oneStep` (Proof/SphSmoothIter) say what one
iteration does to one particle; `PData`, `CacheOk` what the particles of a patch are.
-/

namespace Shamrock.Smooth

open Shamrock.Kern

/-- C65 (density). For every set of particles and every neighbour cache built for the lengths `H`, the
loop over the neighbours gives, for every length up to the tolerance, the density over all particles and
its derivative in `h`: the early return and the cache lose nothing. -/
theorem C65_density {P : Par} (hP : ParOk P) {d : PData} {p : HPatch} (hc : CacheOk P d p) {a : Nat}
    (ha : a < d.n) : ∃ ids, p.cache.forEach a = some ids ∧ ∀ h, 0 < h → h ≤ d.H a * P.hTot →
      ∃ D, sums P.K P.m p.pos (d.X a) h ids = some (dens P.K P.m d.X d.N a h, D) ∧
        HasDerivAt (dens P.K P.m d.X d.N a) D h := by
  obtain ⟨ids, i1, i2⟩ := cache_sums hP hc ha
  exact ⟨ids, i1, fun h hh hle => ⟨_, i2 h hh hle, dens_deriv hP.ker P.m d.X d.N a hh⟩⟩

/-- C65 (step). One evaluation of the node, in any order of execution, makes for every particle whose
last change exceeds 1e-6 one limited Newton step for `resid` (`D` is its derivative) and leaves the
others. -/
theorem C65_step {P : Par} (hP : ParOk P) {d : PData} {p : HPatch} (hc : CacheOk P d p)
    (order : List Nat) (ho : order.Perm (List.range d.n)) (S : Nat → ℝ × ℝ) (hr : Rep d p S)
    (hS : ∀ a < d.n, Good P d a (S a)) :
    ∃ p', evalPatch P order p = some p' ∧ p'.hOld = p.hOld ∧ p'.pos = p.pos ∧ p'.cache = p.cache ∧
      p'.hNew.length = d.n ∧ p'.eps.length = d.n ∧
      ∀ a < d.n, ∃ D, HasDerivAt (resid P.K P.m d.X d.N a) D (S a).1 ∧ ∃ h e, p'.hNew[a]? = some h ∧
        p'.eps[a]? = some e ∧
        (1 / 1000000 < (S a).2 → (h, e) = accepted (S a).1 (d.H a) P.hTot
          (proposal (resid P.K P.m d.X d.N a (S a).1) D (S a).1 P.hIter)) ∧
        ((S a).2 ≤ 1 / 1000000 → (h, e) = S a) := by
  obtain ⟨p', h1, h2, h3⟩ := evalPatch_ok hP hc order ho S hr hS
  have hsame : p'.hOld = p.hOld ∧ p'.pos = p.pos ∧ p'.cache = p.cache := by
    unfold evalPatch at h1
    cases hf : order.foldlM (item P p.cache p.pos p.hOld) (p.hNew, p.eps) with
    | none => rw [hf] at h1; exact absurd h1 (by simp)
    | some s =>
      rw [hf] at h1
      simp only [Option.bind_eq_bind, Option.bind_some, Option.pure_def, Option.some.injEq] at h1
      subst h1
      exact ⟨rfl, rfl, rfl⟩
  refine ⟨p', h1, hsame.1, hsame.2.1, hsame.2.2, by rw [h3.1]; simp, by rw [h3.2]; simp, ?_⟩
  intro a ha
  refine ⟨_, resid_deriv hP.ker P.m d.X d.N a (hS a ha).1, (oneStep P d a (S a)).1,
    (oneStep P d a (S a)).2, by rw [h3.1]; simp [ha], by rw [h3.2]; simp [ha], ?_, ?_⟩
  · intro hs; unfold oneStep; rw [if_pos hs]
  · intro hs; unfold oneStep; rw [if_neg (not_lt.2 hs)]

/-- The state before the loop: initial lengths, changes 100 (Solver.cpp: `_epsilon_h` is filled with 100). -/
def Fresh (P : Par) (dss : List (List PData)) (w : List (List HPatch)) : Prop :=
  w.length = dss.length ∧ ∀ (r : Nat) (ds : List PData) (st : List HPatch), dss[r]? = some ds →
    w[r]? = some st → st.length = ds.length ∧ ∀ (i : Nat) (d : PData) (p : HPatch), ds[i]? = some d →
      st[i]? = some p → CacheOk P d p ∧ p.hNew = (List.range d.n).map d.H ∧
        p.eps = List.replicate d.n 100

/-- Particle `a` of patch `i` of rank `r`, with its data, and its length and change in the world `w`. -/
def At (dss : List (List PData)) (w : List (List HPatch)) (r : Nat) (d : PData) (a : Nat) (h e : ℝ) : Prop :=
  ∃ (ds : List PData) (st : List HPatch) (i : Nat) (p : HPatch), dss[r]? = some ds ∧ w[r]? = some st ∧
    ds[i]? = some d ∧ st[i]? = some p ∧ a < d.n ∧ p.hNew[a]? = some h ∧ p.eps[a]? = some e

theorem Fresh.wok {P : Par} (hP : ParOk P) {dss : List (List PData)} {w : List (List HPatch)}
    (hF : Fresh P dss w) :
    WOk P dss w (fun r i a => (((dss[r]?.getD [])[i]?.map fun d => d.H a).getD 0, 100)) := by
  refine ⟨hF.1, fun r ds st hd hs => ⟨(hF.2 r ds st hd hs).1, fun i d p hdi hp => ?_⟩⟩
  obtain ⟨c, e1, e2⟩ := (hF.2 r ds st hd hs).2 i d p hdi hp
  have es : ∀ a, ((((dss[r]?.getD [])[i]?.map fun d => d.H a).getD 0, (100 : ℝ)) : ℝ × ℝ) = (d.H a, 100) := by
    intro a; rw [hd, Option.getD_some, hdi]; rfl
  refine ⟨c, ⟨?_, ?_⟩, fun a ha => ?_⟩
  · rw [e1]
    exact List.map_congr_left fun a _ => (congrArg Prod.fst (es a)).symm
  · rw [e2]; simp [List.map_const']
  · show Good P d a ((((dss[r]?.getD [])[i]?.map fun d => d.H a).getD 0, (100 : ℝ)) : ℝ × ℝ)
    rw [es]
    have hp0 := c.hpos a (by have := c.le; omega)
    refine ⟨hp0, ?_, Or.inr (by norm_num)⟩
    show d.H a ≤ d.H a * P.hTot
    nlinarith [hP.tot]

/-- C65 (loop). Whatever the particles, the number of ranks and patches and the order of execution, the
node never fails; each rank does between one and the allowed number of iterations, the same for all its
particles, and stops early only if all recorded changes are below the tolerance; the convergence flag,
the same on all ranks, holds exactly if every particle of every rank has a recorded change in
`[0, epsH)`. -/
theorem C65_loop {P : Par} (hP : ParOk P) {dss : List (List PData)} {w : List (List HPatch)}
    (hF : Fresh P dss w) (orders : List (List (List (List Nat)))) (ho : WOrd dss orders) :
    ∃ (w' : List (List HPatch)) (cv : Bool) (ks : Nat → Nat), worldLoop P orders w = some (w', cv) ∧
      w'.length = dss.length ∧
      (∀ (r : Nat) (os : List (List (List Nat))), orders[r]? = some os → 1 ≤ ks r ∧ ks r ≤ os.length ∧
        (ks r < os.length → ∀ d a h e, At dss w' r d a h e → e < P.epsH)) ∧
      (∀ (r i : Nat) (ds : List PData) (d : PData) (a : Nat), dss[r]? = some ds → ds[i]? = some d →
        a < d.n → ∃ st p, w'[r]? = some st ∧ st[i]? = some p ∧ CacheOk P d p ∧ p.hNew.length = d.n ∧
          p.eps.length = d.n ∧
          p.hNew[a]? = some ((oneStep P d a)^[ks r] (d.H a, 100)).1 ∧
          p.eps[a]? = some ((oneStep P d a)^[ks r] (d.H a, 100)).2) ∧
      (cv = true ↔ ∀ r d a h e, At dss w' r d a h e → 0 ≤ e ∧ e < P.epsH) := by
  obtain ⟨w', cv, ks, e1, e2, e3, e4⟩ := worldLoop_ok hP (hF.wok hP) orders ho
  have val : ∀ (r i : Nat) (ds : List PData) (d : PData) (a : Nat), dss[r]? = some ds →
      ds[i]? = some d → ((stepAll P ds)^[ks r] (fun i a =>
        (((dss[r]?.getD [])[i]?.map fun d => d.H a).getD 0, (100 : ℝ)))) i a
        = (oneStep P d a)^[ks r] (d.H a, 100) := by
    intro r i ds d a h1 h2
    rw [stepAll_iter P ds i d h2]
    simp [h1, h2]
  have main : ∀ (r i : Nat) (ds : List PData) (d : PData) (a : Nat), dss[r]? = some ds → ds[i]? = some d →
        a < d.n → ∃ st p, w'[r]? = some st ∧ st[i]? = some p ∧ CacheOk P d p ∧ p.hNew.length = d.n ∧
          p.eps.length = d.n ∧
          p.hNew[a]? = some ((oneStep P d a)^[ks r] (d.H a, 100)).1 ∧
          p.eps[a]? = some ((oneStep P d a)^[ks r] (d.H a, 100)).2 := by
    intro r i ds d a h1 h2 ha
    have hr : r < w'.length := by rw [e2.1]; exact (List.getElem?_eq_some_iff.1 h1).1
    have hw : w'[r]? = some w'[r] := List.getElem?_eq_getElem hr
    have hR := e2.2 r ds _ h1 hw
    have hi : i < w'[r].length := by rw [hR.1]; exact (List.getElem?_eq_some_iff.1 h2).1
    have hp : w'[r][i]? = some w'[r][i] := List.getElem?_eq_getElem hi
    obtain ⟨c, rp, _⟩ := hR.2 i d _ h2 hp
    have h1' : (dss[r]?.getD []) = ds := by rw [h1]; rfl
    refine ⟨_, _, hw, hp, c, by rw [rp.1]; simp, by rw [rp.2]; simp, ?_, ?_⟩
    · rw [rp.1]
      simp only [h1', List.getElem?_map, List.getElem?_range ha, Option.map_some]
      rw [← val r i ds d a h1 h2, h1']
    · rw [rp.2]
      simp only [h1', List.getElem?_map, List.getElem?_range ha, Option.map_some]
      rw [← val r i ds d a h1 h2, h1']
  have atE : ∀ r d a h e, At dss w' r d a h e → ∃ (ds : List PData) (i : Nat), dss[r]? = some ds ∧
      ds[i]? = some d ∧ a < d.n ∧ e = ((oneStep P d a)^[ks r] (d.H a, 100)).2 := by
    rintro r d a h e ⟨ds, st, i, p, h1, h2, h3, h4, h5, h6, h7⟩
    obtain ⟨st', p', f1, f2, _, _, _, f6, f7⟩ := main r i ds d a h1 h3 h5
    rw [h2, Option.some.injEq] at f1
    subst f1
    rw [h4, Option.some.injEq] at f2
    subst f2
    rw [h7, Option.some.injEq] at f7
    exact ⟨ds, i, h1, h3, h5, f7⟩
  refine ⟨w', cv, ks, e1, e2.1, ?_, main, ?_⟩
  · intro r os hos
    obtain ⟨f1, f2, f3⟩ := e3 r os hos
    refine ⟨f1, f2, ?_⟩
    intro hlt d a h e hat
    obtain ⟨ds, i, h1, h3, h5, rfl⟩ := atE r d a h e hat
    rcases (f3 ds h1).2 with h | h
    · omega
    · have := h i d h3 a h5
      rw [val r i ds d a h1 h3] at this
      exact this
  · rw [e4]
    constructor
    · intro hall r d a h e hat
      obtain ⟨ds, i, h1, h3, h5, rfl⟩ := atE r d a h e hat
      have := hall r ds h1 i d h3 a h5
      rw [val r i ds d a h1 h3] at this
      exact this
    · intro hall r ds h1 i d h3 a h5
      rw [val r i ds d a h1 h3]
      obtain ⟨st', p', f1, f2, _, _, _, f6, f7⟩ := main r i ds d a h1 h3 h5
      exact hall r d a _ _ ⟨ds, st', i, p', h1, f1, h3, f2, h5, f6, f7⟩

theorem accepted_refused {h h0 t : ℝ} {o : Option ℝ} (hh : 0 < h0) (he : (accepted h h0 t o).2 = -1) :
    (accepted h h0 t o).1 = h0 * t := by
  unfold accepted at he ⊢
  cases o with
  | none => rfl
  | some x =>
    by_cases hx : x < h0 * t
    · simp only [if_pos hx] at he
      have := div_nonneg (abs_nonneg (x - h)) hh.le
      rw [he] at this
      norm_num at this
    · simp only [if_neg hx]

/-- C65 (bounds). After any number of iterations the length of a particle is positive, at most the
tolerance times its initial length - so the neighbour cache is still complete for it - and the recorded
change is `-1` exactly when it sits at that bound as a consequence of a refused step. -/
theorem C65_bounds {P : Par} (hP : ParOk P) {d : PData} {a : Nat} (hH : 0 < d.H a) (k : Nat) :
    let s := (oneStep P d a)^[k] (d.H a, 100)
    0 < s.1 ∧ s.1 ≤ P.hTot * d.H a ∧ (s.2 = -1 ∨ 0 ≤ s.2) ∧ (s.2 = -1 → s.1 = P.hTot * d.H a) ∧
      d.H a / P.hIter ^ k ≤ s.1 := by
  have hs : Good P d a (d.H a, 100) := by
    refine ⟨hH, ?_, Or.inr (by norm_num)⟩
    show d.H a ≤ d.H a * P.hTot
    nlinarith [hP.tot]
  have hg := hP.iter
  obtain ⟨g1, g2, g3⟩ := hs.iter hP hH k
  refine ⟨g1, by rw [mul_comm]; exact g2, g3, ?_, ?_⟩
  · intro he
    rcases last_step P d a k (d.H a, 100) with h | ⟨i, _, hi, h⟩
    · rw [h] at he; norm_num at he
    · rw [h] at he ⊢
      have hG := hs.iter hP hH i
      generalize (oneStep P d a)^[i] (d.H a, 100) = u at *
      unfold oneStep at he ⊢
      rw [if_pos hi] at he ⊢
      rw [mul_comm]
      exact accepted_refused hH he
  · rw [div_le_iff₀ (by positivity), mul_comm]
    exact lower_iter hP hH hs le_rfl k

/-- C65 (converged). If the node reports convergence (and the tolerance is small enough that a step cut
off by the limits cannot look converged: `epsH * g ^ iterations ≤ 1 - 1 / g`), every particle of every
rank ends with a full Newton step for the density equation over all particles, from a length within the
same bounds, and the step is below the tolerance; hence the residual at that length is below the
tolerance times the slope. -/
theorem C65_converged {P : Par} (hP : ParOk P) {dss : List (List PData)} {w w' : List (List HPatch)}
    (hF : Fresh P dss w) (orders : List (List (List (List Nat)))) (ho : WOrd dss orders)
    (he : P.epsH ≤ 100) (K : Nat)
    (hK : ∀ os ∈ orders, os.length ≤ K) (hsm : P.epsH * P.hIter ^ K ≤ 1 - 1 / P.hIter)
    (hrun : worldLoop P orders w = some (w', true)) (r : Nat) (d : PData) (a : Nat) (h e : ℝ)
    (hat : At dss w' r d a h e) :
    ∃ hp D, 0 < hp ∧ hp ≤ P.hTot * d.H a ∧ HasDerivAt (resid P.K P.m d.X d.N a) D hp ∧ D ≠ 0 ∧
      h = hp - resid P.K P.m d.X d.N a hp / D ∧ 0 < h ∧ h < P.hTot * d.H a ∧
      |h - hp| < P.epsH * d.H a ∧
      |resid P.K P.m d.X d.N a hp| < P.epsH * d.H a * |D| := by
  obtain ⟨w1, cv, ks, e1, e2, e3, e4, e5⟩ := C65_loop hP hF orders ho
  rw [hrun, Option.some.injEq, Prod.mk.injEq] at e1
  obtain ⟨rfl, rfl⟩ := e1
  have hee := e5.1 rfl r d a h e hat
  obtain ⟨ds, st, i, p, h1, h2, h3, h4, h5, h6, h7⟩ := hat
  obtain ⟨st', p', f1, f2, c, _, _, f6, f7⟩ := e4 r i ds d a h1 h3 h5
  rw [h2, Option.some.injEq] at f1
  subst f1
  rw [h4, Option.some.injEq] at f2
  subst f2
  rw [h6, Option.some.injEq] at f6
  rw [h7, Option.some.injEq] at f7
  have hH : 0 < d.H a := c.hpos a (by have := c.le; omega)
  have hs : Good P d a (d.H a, 100) := by
    refine ⟨hH, ?_, Or.inr (by norm_num)⟩
    show d.H a ≤ d.H a * P.hTot
    nlinarith [hP.tot]
  have hr : r < orders.length := by rw [ho.1]; exact (List.getElem?_eq_some_iff.1 h1).1
  obtain ⟨k1, k2, _⟩ := e3 r _ (List.getElem?_eq_getElem hr)
  have hkK := hK _ (List.getElem_mem hr)
  have hg := hP.iter
  have hGk := hs.iter hP hH (ks r)
  rcases last_step P d a (ks r) (d.H a, 100) with hl | ⟨j, hj, hje, hl⟩
  · rw [hl] at f7
    have := hee.2
    rw [f7] at this
    norm_num at this
    linarith
  · have hG := hs.iter hP hH j
    have hlow := lower_iter hP hH hs le_rfl j
    rw [hl] at f6 f7 hGk
    generalize (oneStep P d a)^[j] (d.H a, 100) = u at *
    have hne : oneStep P d a u = (h, e) := by rw [f6, f7]
    rw [hne] at hGk
    unfold oneStep at hne
    rw [if_pos hje] at hne
    have hpow : P.hIter ^ j ≤ P.hIter ^ K := pow_le_pow_right₀ hg (by omega)
    have hsmall : P.epsH * d.H a ≤ (1 - 1 / P.hIter) * u.1 := by
      have a1 : d.H a ≤ P.hIter ^ K * u.1 := le_trans hlow (mul_le_mul_of_nonneg_right hpow hG.1.le)
      calc P.epsH * d.H a ≤ P.epsH * (P.hIter ^ K * u.1) := mul_le_mul_of_nonneg_left a1 hP.eps.le
        _ = P.epsH * P.hIter ^ K * u.1 := by ring
        _ ≤ _ := mul_le_mul_of_nonneg_right hsm hG.1.le
    obtain ⟨n1, n2, n3, n4⟩ := full_newton hG.1 hg hH hsmall h e hne hee.1 hee.2
    have hd : |h - u.1| < P.epsH * d.H a := by
      have := hee.2
      rw [n3, div_lt_iff₀ hH] at this
      exact this
    refine ⟨u.1, _, hG.1, by rw [mul_comm]; exact hG.2.1, resid_deriv hP.ker P.m d.X d.N a hG.1, n1, n2,
      hGk.1, by rw [mul_comm]; exact n4, hd, ?_⟩
    have hx : resid P.K P.m d.X d.N a u.1 = -((h - u.1) * slope P.K P.m d.X d.N a u.1) := by
      rw [n2]; field_simp; ring
    rw [hx, abs_neg, abs_mul]
    exact mul_lt_mul_of_pos_right hd (abs_pos.2 n1)

/-- C65 (solution). For the bell shaped kernels, a particle that shares its place with no other has
exactly one positive length at which the density over all particles is the density of that length if
there are enough particles, and never more than one; there the derivative is positive. -/
theorem C65_solution {K : KernelDef} (hK : K ∈ bellKernels) {m : ℝ} (hm : 0 < m) (X : Nat → V3 ℝ)
    (N a : Nat) (ha : a < N) (hX : ∀ b < N, b ≠ a → X b ≠ X a) :
    (∀ h k, 0 < h → 0 < k → dens K m X N a h = rhoH m h K.hfactd →
      dens K m X N a k = rhoH m k K.hfactd → h = k) ∧
    (K.hfactd ^ 3 < N * (K.norm_3d * K.f 0) → ∃! h, 0 < h ∧ dens K m X N a h = rhoH m h K.hfactd) ∧
    (∀ h, 0 < h → dens K m X N a h = rhoH m h K.hfactd →
      ∃ D, 0 < D ∧ HasDerivAt (fun h => dens K m X N a h - rhoH m h K.hfactd) D h) := by
  have hu : ∀ h k, 0 < h → 0 < k → dens K m X N a h = rhoH m h K.hfactd →
      dens K m X N a k = rhoH m k K.hfactd → h = k := fun h k hh hk h0 k0 =>
    root_unique hK hm X N a ha hX hh hk (sub_eq_zero.2 h0) (sub_eq_zero.2 k0)
  refine ⟨hu, fun hN => ?_, fun h hh h0 => ?_⟩
  · obtain ⟨h, hh, h0⟩ := root_exists hK hm X N a ha hX hN
    exact ⟨h, ⟨hh, sub_eq_zero.1 h0⟩, fun k hk => hu k h hk.1 hh hk.2 (sub_eq_zero.1 h0)⟩
  · refine ⟨slope K m X N a h, ?_, resid_deriv (bell_mem hK) m X N a hh⟩
    have h0' : resid K m X N a h = 0 := sub_eq_zero.2 h0
    have := (slope_ge hK hm X N a hh).2 (root_neigh hK hm X N a ha hX hh h0')
    rw [h0'] at this
    simpa using this

/-- C65 (fixed points). For the bell shaped kernels and `g > 1`, a particle below the bound is left where
it is, with recorded change 0, exactly if its length solves the density equation. -/
theorem C65_fixed {P : Par} (hP : ParOk P) (hb : P.K ∈ bellKernels) (hg : 1 < P.hIter) {d : PData}
    {a : Nat} (ha : a < d.N) (hH : 0 < d.H a) (hX : ∀ b < d.N, b ≠ a → d.X b ≠ d.X a) {h e : ℝ} (hh : 0 < h)
    (hlt : h < P.hTot * d.H a) (he : 1 / 1000000 < e) :
    oneStep P d a (h, e) = (h, 0) ↔ dens P.K P.m d.X d.N a h = rhoH P.m h P.K.hfactd := by
  have hg0 : 0 < P.hIter := by linarith
  have hlow : h / P.hIter < h := by rw [div_lt_iff₀ hg0]; nlinarith
  have hup : h < P.hIter * h := by nlinarith
  unfold oneStep
  simp only [if_pos he]
  constructor
  · intro hst
    have hq : 0 < (1 - 1 / P.hIter) * h / d.H a := by
      have : (1 - 1 / P.hIter) * h = h - h / P.hIter := by ring
      rw [this]; exact div_pos (by linarith) hH
    obtain ⟨n1, n2, _, _⟩ := full_newton hh hP.iter hH (ε := (1 - 1 / P.hIter) * h / d.H a)
      (by rw [div_mul_cancel₀ _ hH.ne']) h 0 hst le_rfl hq
    have : resid P.K P.m d.X d.N a h / slope P.K P.m d.X d.N a h = 0 := by linarith
    rcases div_eq_zero_iff.1 this with h0 | h0
    · exact sub_eq_zero.1 h0
    · exact absurd h0 n1
  · intro h0
    have h0' : resid P.K P.m d.X d.N a h = 0 := sub_eq_zero.2 h0
    have hD := (slope_ge hb hP.mass d.X d.N a hh).2 (root_neigh hb hP.mass d.X d.N a ha hX hh h0')
    rw [h0'] at hD ⊢
    have hD' : slope P.K P.m d.X d.N a h ≠ 0 := by
      intro h'; rw [h'] at hD; simp at hD
    unfold proposal
    rw [if_pos hD', zero_div, sub_zero, min_eq_right hup.le, max_eq_right hlow.le]
    unfold accepted
    simp only
    rw [if_pos (by rw [mul_comm]; exact hlt)]
    simp

/-- C65 (omega). The grad-h factor of a particle is `1 + h / (3 rho_h) * d(density)/dh` over all particles;
at a solution of the density equation, for the bell shaped kernels, it is positive: the force loops divide
by it. -/
theorem C65_omega {P : Par} (hP : ParOk P) {d : PData} {p : HPatch} (hc : CacheOk P d p) {a : Nat}
    (ha : a < d.n) (hpart : List ℝ) (h : ℝ) (hh : hpart[a]? = some h) (h0 : 0 < h)
    (hle : h ≤ d.H a * P.hTot) :
    ∃ D om, HasDerivAt (dens P.K P.m d.X d.N a) D h ∧
      omegaItem P.K P.m p.cache p.pos hpart a = some om ∧
      om = 1 + h / (3 * rhoH P.m h P.K.hfactd) * D ∧
      (P.K ∈ bellKernels → (∀ b < d.N, b ≠ a → d.X b ≠ d.X a) →
        dens P.K P.m d.X d.N a h = rhoH P.m h P.K.hfactd → 0 < om) := by
  obtain ⟨ids, i1, i2⟩ := cache_sums hP hc ha
  have haN : a < d.N := by have := hc.le; omega
  refine ⟨_, _, dens_deriv hP.ker P.m d.X d.N a h0, ?_, rfl, ?_⟩
  · unfold omegaItem
    simp only [hc.pos a haN, hh, i1, Option.bind_eq_bind, Option.bind_some, i2 h h0 hle]
    rfl
  · intro hb hX hroot
    obtain ⟨D, hD, hd⟩ := (C65_solution hb hP.mass d.X d.N a haN hX).2.2 h h0 hroot
    have e : D = slopeW P.K P.m d.X d.N a h + 3 * rhoH P.m h P.K.hfactd / h :=
      hd.unique (resid_deriv hP.ker P.m d.X d.N a h0)
    have hhf : 0 < P.K.hfactd := by
      have h3 := self_low hb
      have hn := bell_n3 hb
      have hf : 0 ≤ P.K.f 0 := by
        have := (C64_positive P.K hP.ker 1 one_pos 0 le_rfl).1.2.2
        simp only [W_3d, zero_div] at this
        by_contra hneg
        push Not at hneg
        have : P.K.norm_3d * P.K.f 0 < 0 := mul_neg_of_pos_of_neg hn hneg
        norm_num at *
        linarith
      by_contra hneg
      push Not at hneg
      have : P.K.hfactd ^ 3 ≤ 0 := by
        have h2 : 0 ≤ P.K.hfactd ^ 2 := by positivity
        nlinarith
      have : 0 ≤ P.K.norm_3d * P.K.f 0 := mul_nonneg hn.le hf
      linarith
    have hr : 0 < rhoH P.m h P.K.hfactd := by
      have := hP.mass
      unfold rhoH; positivity
    have : 1 + h / (3 * rhoH P.m h P.K.hfactd) * slopeW P.K P.m d.X d.N a h
        = h / (3 * rhoH P.m h P.K.hfactd) * D := by
      rw [e]; field_simp; ring
    rw [this]
    positivity

/-! ### A lone particle -/

theorem lone_resid {K : KernelDef} (m : ℝ) (X : Nat → V3 ℝ) {h : ℝ} (hh : 0 < h) :
    resid K m X 1 0 h = m * (K.norm_3d * K.f 0 - K.hfactd ^ 3) / h ^ 3 := by
  simp only [resid, dens, Finset.sum_range_one, dist_self, W_3d, zero_div, rhoH]
  field_simp

theorem lone_slope {K : KernelDef} (hK : K ∈ kernels) (m : ℝ) (X : Nat → V3 ℝ) {h : ℝ} (hh : 0 < h) :
    slope K m X 1 0 h = -(3 * resid K m X 1 0 h / h) := by
  have h1 := resid_deriv hK m X 1 0 hh
  have h2 : HasDerivAt (resid K m X 1 0) (-(3 * resid K m X 1 0 h / h)) h := by
    have e : HasDerivAt (fun h : ℝ => m * (K.norm_3d * K.f 0 - K.hfactd ^ 3) / h ^ 3)
        (-(3 * resid K m X 1 0 h / h)) h := by
      have h0 : h ^ 3 ≠ 0 := by positivity
      have := (hasDerivAt_const h (m * (K.norm_3d * K.f 0 - K.hfactd ^ 3))).div (hasDerivAt_pow 3 h) h0
      refine this.congr_deriv ?_
      rw [lone_resid m X hh]
      have := hh.ne'
      field_simp
      ring
    refine e.congr_of_eventuallyEq ?_
    filter_upwards [lt_mem_nhds hh] with x hx
    exact lone_resid m X hx
  exact h1.unique h2

theorem lone_iter {P : Par} (hP : ParOk P) (hb : P.K ∈ bellKernels) {d : PData} (hN : d.N = 1)
    (hH : 0 < d.H 0) (he : P.epsH ≤ 1 / 3) (hg : P.epsH ≤ P.hIter - 1) (k : Nat) :
    let s := (oneStep P d 0)^[k] (d.H 0, 100)
    d.H 0 ≤ s.1 ∧ (s.2 = -1 ∨ P.epsH ≤ s.2) := by
  have ht := hP.tot
  have heps := hP.eps
  induction k with
  | zero => exact ⟨le_rfl, Or.inr (by show P.epsH ≤ 100; linarith)⟩
  | succ k ih =>
    simp only [Function.iterate_succ_apply'] at ih ⊢
    generalize (oneStep P d 0)^[k] (d.H 0, 100) = u at *
    obtain ⟨u1, u2⟩ := ih
    have hu : 0 < u.1 := by linarith
    unfold oneStep
    split
    · have hneg : resid P.K P.m d.X d.N 0 u.1 < 0 := by
        rw [hN, lone_resid P.m d.X hu]
        refine div_neg_of_neg_of_pos (mul_neg_of_pos_of_neg hP.mass ?_) (by positivity)
        have := self_low hb
        linarith
      have hsl : slope P.K P.m d.X d.N 0 u.1 = -(3 * resid P.K P.m d.X d.N 0 u.1 / u.1) := by
        rw [hN]; exact lone_slope hP.ker P.m d.X hu
      generalize resid P.K P.m d.X d.N 0 u.1 = F at *
      have hD : slope P.K P.m d.X d.N 0 u.1 ≠ 0 := by
        rw [hsl]
        have : 3 * F / u.1 < 0 := div_neg_of_neg_of_pos (by linarith) hu
        linarith
      have hq : F / slope P.K P.m d.X d.N 0 u.1 = -(u.1 / 3) := by
        rw [hsl]
        have := hneg.ne
        field_simp
      unfold proposal
      rw [if_pos hD, hq]
      generalize hx : max (u.1 / P.hIter) (min (P.hIter * u.1) (u.1 - -(u.1 / 3))) = x
      have hxl : (1 + P.epsH) * u.1 ≤ x := by
        rw [← hx]
        refine le_max_of_le_right (le_min ?_ ?_)
        · exact mul_le_mul_of_nonneg_right (by linarith) hu.le
        · nlinarith
      unfold accepted
      simp only
      split
      · refine ⟨by show d.H 0 ≤ x; nlinarith, Or.inr ?_⟩
        show P.epsH ≤ |x - u.1| / d.H 0
        rw [le_div_iff₀ hH]
        refine le_trans ?_ (le_abs_self _)
        nlinarith
      · refine ⟨?_, Or.inl rfl⟩
        show d.H 0 ≤ d.H 0 * P.hTot
        nlinarith
    · exact ⟨u1, u2⟩

/-- C65 (no solution). A particle alone in its patch and its ghosts has no length that solves the density
equation (bell shaped kernels), and the node never reports convergence then, whatever the number of
iterations. -/
theorem C65_lone {P : Par} (hP : ParOk P) (hb : P.K ∈ bellKernels) {dss : List (List PData)}
    {w w' : List (List HPatch)} (hF : Fresh P dss w) (orders : List (List (List (List Nat))))
    (ho : WOrd dss orders) (he : P.epsH ≤ 1 / 3) (hg : P.epsH ≤ P.hIter - 1) (ds : List PData) (d : PData)
    (h1 : ds ∈ dss) (h2 : d ∈ ds) (hn : 0 < d.n) (hN : d.N = 1) (cv : Bool)
    (hrun : worldLoop P orders w = some (w', cv)) :
    cv = false ∧ ∀ h, 0 < h → dens P.K P.m d.X d.N 0 h ≠ rhoH P.m h P.K.hfactd := by
  constructor
  · obtain ⟨w1, cv', ks, e1, e2, e3, e4, e5⟩ := C65_loop hP hF orders ho
    rw [hrun, Option.some.injEq, Prod.mk.injEq] at e1
    obtain ⟨rfl, rfl⟩ := e1
    obtain ⟨r, hr, hr'⟩ := List.getElem_of_mem h1
    obtain ⟨i, hi, hi'⟩ := List.getElem_of_mem h2
    have hr1 : dss[r]? = some ds := by rw [List.getElem?_eq_getElem hr, hr']
    have hi1 : ds[i]? = some d := by rw [List.getElem?_eq_getElem hi, hi']
    obtain ⟨st, p, f1, f2, c, _, _, f6, f7⟩ := e4 r i ds d 0 hr1 hi1 hn
    by_contra hcv
    rw [Bool.not_eq_false] at hcv
    have := e5.1 hcv r d 0 _ _ ⟨ds, st, i, p, hr1, f1, hi1, f2, hn, f6, f7⟩
    have hl := (lone_iter hP hb hN (c.hpos 0 (by omega)) he hg (ks r)).2
    rcases hl with h | h
    · rw [h] at this; norm_num at this
    · linarith [this.2]
  · intro h hh hc
    have h0 : resid P.K P.m d.X d.N 0 h = 0 := sub_eq_zero.2 hc
    rw [hN, lone_resid P.m d.X hh] at h0
    have hneg : P.m * (P.K.norm_3d * P.K.f 0 - P.K.hfactd ^ 3) / h ^ 3 < 0 := by
      refine div_neg_of_neg_of_pos (mul_neg_of_pos_of_neg hP.mass ?_) (by positivity)
      have := self_low hb
      linarith
    linarith

/-! ### The cycles -/

/-- Lengths of all particles, `ns` of them per patch and rank, all positive. -/
def Lengths (ns : List (List Nat)) (h : List (List (List ℝ))) : Prop :=
  h.map (fun r => r.map List.length) = ns ∧ ∀ r ∈ h, ∀ l ∈ r, ∀ x ∈ l, 0 < x

/-- Whatever the lengths, the cycle builds complete caches for them (ghosts, trees and caches are other
properties: C54, C56) and has an order of execution; `Q` holds for the particles seen. -/
def CycleOk (P : Par) (ns : List (List Nat)) (Q : List (List PData) → Prop)
    (c : (List (List (List ℝ)) → List (List (ObjCache × List (V3 ℝ)))) × List (List (List (List Nat)))) : Prop :=
  ∀ h, Lengths ns h → ∃ dss, Fresh P dss (cycleWorld c.1 h) ∧ WOrd dss c.2 ∧ Q dss ∧
    dss.map (fun r => r.map PData.n) = ns

theorem world_lengths {P : Par} (hP : ParOk P) {ns : List (List Nat)} {dss : List (List PData)}
    {w w' : List (List HPatch)} (hF : Fresh P dss w) {orders : List (List (List (List Nat)))} {cv : Bool}
    (ho : WOrd dss orders) (hrun : worldLoop P orders w = some (w', cv))
    (hns : dss.map (fun r => r.map PData.n) = ns) :
    Lengths ns (w'.map fun r => r.map HPatch.hNew) := by
  obtain ⟨w1, cv', ks, e1, e2, e3, e4⟩ := worldLoop_ok hP (hF.wok hP) orders ho
  rw [hrun, Option.some.injEq, Prod.mk.injEq] at e1
  obtain ⟨rfl, rfl⟩ := e1
  have hw := e2
  constructor
  · rw [← hns, List.map_map]
    apply List.ext_getElem?
    intro r
    rw [List.getElem?_map, List.getElem?_map]
    by_cases hr : r < dss.length
    · have h1 : dss[r]? = some dss[r] := List.getElem?_eq_getElem hr
      have h2 : w'[r]? = some (w'[r]'(by rw [hw.1]; exact hr)) := List.getElem?_eq_getElem _
      have hR := hw.2 r _ _ h1 h2
      rw [h1, h2, Option.map_some, Option.map_some, Option.some.injEq]
      simp only [Function.comp_apply, List.map_map]
      apply List.ext_getElem?
      intro i
      rw [List.getElem?_map, List.getElem?_map]
      by_cases hi : i < dss[r].length
      · have g1 : dss[r][i]? = some dss[r][i] := List.getElem?_eq_getElem hi
        have g2 : (w'[r]'(by rw [hw.1]; exact hr))[i]?
            = some ((w'[r]'(by rw [hw.1]; exact hr))[i]'(by rw [hR.1]; exact hi)) :=
          List.getElem?_eq_getElem _
        have := (hR.2 i _ _ g1 g2).2.1.1
        rw [g1, g2, Option.map_some, Option.map_some, Option.some.injEq]
        simp only [Function.comp_apply]
        rw [this]
        simp
      · rw [List.getElem?_eq_none (by rw [hR.1]; omega), List.getElem?_eq_none (by omega)]
        rfl
    · rw [List.getElem?_eq_none (by rw [hw.1]; omega), List.getElem?_eq_none (by omega)]
      rfl
  · intro r hr l hl x hx
    obtain ⟨st, hst, rfl⟩ := List.mem_map.1 hr
    obtain ⟨p, hp, rfl⟩ := List.mem_map.1 hl
    obtain ⟨j, hj, rfl⟩ := List.getElem_of_mem hst
    obtain ⟨i, hi, rfl⟩ := List.getElem_of_mem hp
    have h1 : dss[j]? = some (dss[j]'(by rw [← hw.1]; exact hj)) := List.getElem?_eq_getElem _
    have hR := hw.2 j _ _ h1 (List.getElem?_eq_getElem hj)
    have g1 : (dss[j]'(by rw [← hw.1]; exact hj))[i]?
        = some ((dss[j]'(by rw [← hw.1]; exact hj))[i]'(by rw [← hR.1]; exact hi)) :=
      List.getElem?_eq_getElem _
    obtain ⟨c, rp, gd⟩ := hR.2 i _ _ g1 (List.getElem?_eq_getElem hi)
    rw [rp.1] at hx
    obtain ⟨a, ha, rfl⟩ := List.mem_map.1 hx
    exact (gd a (List.mem_range.1 ha)).1

/-- C65 (pre-step). If every cycle can build complete caches, the cycles never fail and keep all lengths
positive; if a world is handed on, it is one for which the node reported convergence, on caches that are
complete for its lengths. -/
theorem C65_prestep {P : Par} (hP : ParOk P) (ns : List (List Nat))
    (Q : List (List PData) → Prop)
    (cycles : List ((List (List (List ℝ)) → List (List (ObjCache × List (V3 ℝ)))) ×
      List (List (List (List Nat))))) (hc : ∀ c ∈ cycles, CycleOk P ns Q c) (h : List (List (List ℝ)))
    (hh : Lengths ns h) :
    ∃ h' res, prestep P cycles h = some (h', res) ∧ Lengths ns h' ∧
      ∀ w', res = some w' → h' = w'.map (fun r => r.map HPatch.hNew) ∧
        ∃ c ∈ cycles, ∃ h0 dss, Lengths ns h0 ∧ Fresh P dss (cycleWorld c.1 h0) ∧ WOrd dss c.2 ∧ Q dss ∧
          worldLoop P c.2 (cycleWorld c.1 h0) = some (w', true) := by
  induction cycles generalizing h with
  | nil => exact ⟨h, none, rfl, hh, fun w' h => absurd h (by simp)⟩
  | cons c cs ih =>
    obtain ⟨build, orders⟩ := c
    obtain ⟨dss, f1, f2, f3, f4⟩ := hc (build, orders) List.mem_cons_self h hh
    obtain ⟨w1, cv, ks, e1, e2, e3, e4⟩ := worldLoop_ok hP (f1.wok hP) orders f2
    have hl := world_lengths hP f1 f2 e1 f4
    rw [prestep]
    simp only at e1
    rw [e1, Option.bind_eq_bind, Option.bind_some]
    cases cv with
    | true =>
      refine ⟨_, _, rfl, hl, ?_⟩
      intro w' hw'
      rw [Option.some.injEq] at hw'
      subst hw'
      exact ⟨rfl, (build, orders), List.mem_cons_self, h, dss, hh, f1, f2, f3, e1⟩
    | false =>
      obtain ⟨h', res, g1, g2, g3⟩ := ih (fun c hc' => hc c (List.mem_cons_of_mem _ hc')) _ hl
      refine ⟨h', res, g1, g2, ?_⟩
      intro w' hw'
      obtain ⟨a1, c, hcm, rest⟩ := g3 w' hw'
      exact ⟨a1, c, List.mem_cons_of_mem _ hcm, rest⟩

/-- C65 (giving up). With a lone particle no number of cycles ever succeeds: the pre-step ends without a
valid world.  The code only logs an error then and goes on with the caches freed (Solver.cpp:1274-1276). -/
theorem C65_gives_up {P : Par} (hP : ParOk P) (hb : P.K ∈ bellKernels) (he : P.epsH ≤ 1 / 3)
    (hg : P.epsH ≤ P.hIter - 1) (ns : List (List Nat))
    (cycles : List ((List (List (List ℝ)) → List (List (ObjCache × List (V3 ℝ)))) ×
      List (List (List (List Nat)))))
    (hc : ∀ c ∈ cycles, CycleOk P ns (fun dss => ∃ ds ∈ dss, ∃ d ∈ ds, 0 < d.n ∧ d.N = 1) c)
    (h : List (List (List ℝ))) (hh : Lengths ns h) : ∃ h', prestep P cycles h = some (h', none) := by
  obtain ⟨h', res, e1, e2, e3⟩ := C65_prestep hP ns _ cycles hc h hh
  cases res with
  | none => exact ⟨h', e1⟩
  | some w' =>
    obtain ⟨_, c, _, h0, dss, _, hF, ho, ⟨ds, hds, d, hd, hn, hN⟩, hrun⟩ := e3 w' rfl
    have := (C65_lone hP hb hF c.2 ho he hg ds d hds hd hn hN true hrun).1
    exact absurd this (by simp)

end Shamrock.Smooth
