import Verif.Props.SphSmooth

/-! # C65: particles at their solutions, and a concrete case -/

namespace Shamrock.Smooth

open Shamrock.Kern

/-- C65 (stationary). If every particle starts at the solution of its density equation, the node reports
convergence and changes no length. -/
theorem C65_stationary {P : Par} (hP : ParOk P) (hb : P.K ∈ bellKernels) (hg : 1 < P.hIter)
    (ht : 1 < P.hTot) {dss : List (List PData)} {w : List (List HPatch)} (hF : Fresh P dss w)
    (orders : List (List (List (List Nat)))) (ho : WOrd dss orders)
    (hX : ∀ ds ∈ dss, ∀ d ∈ ds, ∀ a < d.n, (∀ b < d.N, b ≠ a → d.X b ≠ d.X a) ∧
      dens P.K P.m d.X d.N a (d.H a) = rhoH P.m (d.H a) P.K.hfactd) :
    ∃ w', worldLoop P orders w = some (w', true) ∧ ∀ r d a h e, At dss w' r d a h e → h = d.H a ∧ e = 0 := by
  obtain ⟨w', cv, ks, e1, e2, e3, e4, e5⟩ := C65_loop hP hF orders ho
  have iter : ∀ ds ∈ dss, ∀ d ∈ ds, ∀ a < d.n, d.n ≤ d.N → 0 < d.H a → ∀ k, 1 ≤ k →
      (oneStep P d a)^[k] (d.H a, 100) = (d.H a, 0) := by
    intro ds hds d hd a ha hle hH k hk
    obtain ⟨x1, x2⟩ := hX ds hds d hd a ha
    have h1 : oneStep P d a (d.H a, 100) = (d.H a, 0) :=
      (C65_fixed hP hb hg (by omega) hH x1 hH (by nlinarith) (by norm_num)).2 x2
    obtain ⟨k, rfl⟩ : ∃ j, k = j + 1 := ⟨k - 1, by omega⟩
    rw [Function.iterate_succ_apply, h1]
    have h2 : oneStep P d a (d.H a, 0) = (d.H a, 0) := by
      unfold oneStep
      rw [if_neg (by norm_num)]
    exact Function.iterate_fixed h2 k
  have at0 : ∀ r d a h e, At dss w' r d a h e → h = d.H a ∧ e = 0 := by
    rintro r d a h e ⟨ds, st, i, p, h1, h2, h3, h4, h5, h6, h7⟩
    obtain ⟨st', p', f1, f2, c, _, _, f6, f7⟩ := e4 r i ds d a h1 h3 h5
    rw [h2, Option.some.injEq] at f1
    subst f1
    rw [h4, Option.some.injEq] at f2
    subst f2
    have hr : r < orders.length := by rw [ho.1]; exact (List.getElem?_eq_some_iff.1 h1).1
    have hk := (e3 r _ (List.getElem?_eq_getElem hr)).1
    have := iter ds (List.mem_of_getElem? h1) d (List.mem_of_getElem? h3) a h5 c.le
      (c.hpos a (by have := c.le; omega)) (ks r) hk
    rw [h6, this, Option.some.injEq] at f6
    rw [h7, this, Option.some.injEq] at f7
    exact ⟨f6, f7⟩
  have hcv : cv = true := e5.2 fun r d a h e hat => by
    rw [(at0 r d a h e hat).2]; exact ⟨le_rfl, hP.eps⟩
  subst hcv
  exact ⟨w', e1, at0⟩

/-! ### A concrete case: six particles on a line -/

/-- Default parameters of `SolverConfig`, cubic spline. -/
noncomputable def hxPar : Par := ⟨M4.kernel, 1, 11 / 10, 11 / 10, 1 / 1000000, 10 ^ 30⟩

theorem hx_bell : hxPar.K ∈ bellKernels := by simp [hxPar, bellKernels]

theorem hx_ok : ParOk hxPar := by
  refine ⟨bell_mem hx_bell, ?_, ?_, ?_, ?_, ?_⟩ <;> norm_num [hxPar]

/-- Six particles on a line. -/
noncomputable def hxX (i : Nat) : V3 ℝ := ⟨i, 0, 0⟩

theorem hxX_inj {a b : Nat} (h : b ≠ a) : hxX b ≠ hxX a := by
  intro e
  have := congrArg V3.x e
  simp only [hxX] at this
  exact h (by exact_mod_cast this)

/-- Six is enough for the cubic spline. -/
theorem hx_enough : hxPar.K.hfactd ^ 3 < ((6 : Nat) : ℝ) * (hxPar.K.norm_3d * hxPar.K.f 0) := by
  have hp := Real.pi_pos
  have h4 := Real.pi_lt_d2
  simp only [hxPar, M4.kernel, M4.f, M4.norm_3d, M4.hfactd]
  norm_num
  field_simp
  nlinarith

theorem hx_roots : ∃ H : Nat → ℝ, ∀ a < 6, 0 < H a ∧
    dens hxPar.K hxPar.m hxX 6 a (H a) = rhoH hxPar.m (H a) hxPar.K.hfactd := by
  have : ∀ a, ∃ h, a < 6 → 0 < h ∧ dens hxPar.K hxPar.m hxX 6 a h = rhoH hxPar.m h hxPar.K.hfactd := by
    intro a
    by_cases ha : a < 6
    · obtain ⟨h, hh, _⟩ := (C65_solution hx_bell hx_ok.mass hxX 6 a ha (fun b _ hb => hxX_inj hb)).2.1 hx_enough
      exact ⟨h, fun _ => hh⟩
    · exact ⟨0, fun h => absurd h ha⟩
  choose H hH using this
  exact ⟨H, hH⟩

/-- A complete cache exists for any lengths. -/
theorem hx_cache (H : Nat → ℝ) (n : Nat) (hn : 0 < n) (hn6 : n ≤ 6) :
    ∃ c, NeighSpec (exactSph hxPar.hTot hxPar.K.Rkern) hxX H n n c := by
  have hsz : sphPairs (exactSph hxPar.hTot hxPar.K.Rkern) hxX H n n < 2 ^ 32 := by
    have hf : ∀ a, ((List.range n).filter fun b =>
        sphNear (exactSph hxPar.hTot hxPar.K.Rkern) hxX H a b).length ≤ n := fun a => by
      have := List.length_filter_le (fun b => sphNear (exactSph hxPar.hTot hxPar.K.Rkern) hxX H a b) (List.range n)
      simpa using this
    have : ∀ l : List Nat, (l.map fun a => ((List.range n).filter fun b =>
        sphNear (exactSph hxPar.hTot hxPar.K.Rkern) hxX H a b).length).sum ≤ n * l.length := by
      intro l
      induction l with
      | nil => simp
      | cons a l ih => simp only [List.map_cons, List.sum_cons, List.length_cons, Nat.mul_succ]; have := hf a; omega
    have h6 := this (List.range n)
    rw [List.length_range] at h6
    unfold sphPairs
    have : n * n ≤ 36 := by nlinarith
    omega
  obtain ⟨_, c, _, _, hc⟩ := spec_of_runs (exactSph hxPar.hTot hxPar.K.Rkern) hxX H n n hn hsz
    (fun _ => 0) (List.range n) (List.Perm.refl _)
    (fun a => some ((List.range n).filter fun b => sphNear (exactSph hxPar.hTot hxPar.K.Rkern) hxX H a b))
    (fun a _ => ⟨_, rfl, List.nodup_range.filter _, fun b hb => by
        rw [List.mem_filter, List.mem_range] at hb; exact hb, fun b hb h _ => by
        rw [List.mem_filter, List.mem_range]; exact ⟨hb, h⟩⟩)
  exact ⟨c, hc⟩

/-- A world of one rank and one patch that meets all hypotheses, and its node reports convergence. -/
theorem hx_world : ∃ (d : PData) (w w' : List (List HPatch)), d.n = 6 ∧ d.X = hxX ∧ Fresh hxPar [[d]] w ∧
    WOrd [[d]] [List.replicate 50 [[5, 4, 3, 2, 1, 0]]] ∧
    worldLoop hxPar [List.replicate 50 [[5, 4, 3, 2, 1, 0]]] w = some (w', true) ∧
    hxPar.epsH * hxPar.hIter ^ 50 ≤ 1 - 1 / hxPar.hIter := by
  obtain ⟨H, hH⟩ := hx_roots
  obtain ⟨c, hc⟩ := hx_cache H 6 (by norm_num) le_rfl
  let d : PData := ⟨6, 6, hxX, H⟩
  let p : HPatch := ⟨c, (List.range 6).map hxX, (List.range 6).map H, (List.range 6).map H, List.replicate 6 100⟩
  have hcache : CacheOk hxPar d p := by
    refine ⟨le_rfl, fun i hi => ?_, fun i hi => (hH i hi).1, rfl, hc⟩
    have : i < 6 := hi
    simp [p, d, this]
  have hF : Fresh hxPar [[d]] [[p]] := by
    refine ⟨rfl, ?_⟩
    intro r ds st h1 h2
    cases r with
    | succ r => simp at h1
    | zero =>
      simp at h1 h2
      subst h1 h2
      refine ⟨rfl, ?_⟩
      intro i d' p' h3 h4
      cases i with
      | succ i => simp at h3
      | zero =>
        simp at h3 h4
        subst h3 h4
        exact ⟨hcache, rfl, rfl⟩
  have hO : WOrd [[d]] [List.replicate 50 [[5, 4, 3, 2, 1, 0]]] := by
    refine ⟨rfl, ?_⟩
    intro r ds os h1 h2
    cases r with
    | succ r => simp at h1
    | zero =>
      simp only [List.getElem?_cons_zero, Option.some.injEq] at h1 h2
      subst h1 h2
      refine ⟨by simp, fun o ho => ?_⟩
      rw [List.eq_of_mem_replicate ho]
      refine ⟨rfl, ?_⟩
      intro i d' l h3 h4
      cases i with
      | succ i => simp at h3
      | zero =>
        simp only [List.getElem?_cons_zero, Option.some.injEq] at h3 h4
        subst h3 h4
        show List.Perm [5, 4, 3, 2, 1, 0] (List.range 6)
        decide
  have hX : ∀ ds ∈ [[d]], ∀ d' ∈ ds, ∀ a < d'.n, (∀ b < d'.N, b ≠ a → d'.X b ≠ d'.X a) ∧
      dens hxPar.K hxPar.m d'.X d'.N a (d'.H a) = rhoH hxPar.m (d'.H a) hxPar.K.hfactd := by
    intro ds hds d' hd' a ha
    rw [List.mem_singleton] at hds
    subst hds
    rw [List.mem_singleton] at hd'
    subst hd'
    exact ⟨fun b _ hb => hxX_inj hb, (hH a ha).2⟩
  obtain ⟨w', hw', _⟩ := C65_stationary hx_ok hx_bell (by norm_num [hxPar]) (by norm_num [hxPar]) hF _ hO hX
  exact ⟨d, [[p]], w', rfl, rfl, hF, hO, hw', by norm_num [hxPar]⟩

/-- The hypotheses of `C65_converged` hold for the defaults on a converging world, so every particle ends
with a full Newton step. -/
example : ∃ (d : PData) (w' : List (List HPatch)), ∀ h e, At [[d]] w' 0 d 0 h e →
    ∃ hp, |h - hp| < hxPar.epsH * d.H 0 := by
  obtain ⟨d, w, w', h1, h2, hF, hO, hrun, hsm⟩ := hx_world
  refine ⟨d, w', fun h e hat => ?_⟩
  obtain ⟨hp, D, _, _, _, _, _, _, _, hlt, _⟩ := C65_converged hx_ok hF _ hO (by norm_num [hxPar]) 50
    (by simp) hsm hrun 0 d 0 h e hat
  exact ⟨hp, hlt⟩

/-- A proposal that is cut off: with a large residual the length grows by the factor only. -/
example : proposal (-3) 1 1 (11 / 10) = some (11 / 10) ∧ proposal 3 1 1 (11 / 10) = some (10 / 11) ∧
    proposal (1 / 100) 1 1 (11 / 10) = some (99 / 100) ∧ proposal 1 0 1 2 = some (1 / 2) ∧
    accepted 1 1 (11 / 10) (some (11 / 10)) = (11 / 10, -1) ∧
    accepted 1 2 (11 / 10) (some (11 / 10)) = (11 / 10, 1 / 20) := by
  refine ⟨?_, ?_, ?_, ?_, ?_, ?_⟩
  · unfold proposal
    rw [if_pos (by norm_num), Option.some.injEq, min_eq_left (by norm_num), max_eq_right (by norm_num)]; norm_num
  · unfold proposal
    rw [if_pos (by norm_num), Option.some.injEq, min_eq_right (by norm_num), max_eq_left (by norm_num)]; norm_num
  · unfold proposal
    rw [if_pos (by norm_num), Option.some.injEq, min_eq_right (by norm_num), max_eq_right (by norm_num)]; norm_num
  · unfold proposal
    rw [if_neg (by norm_num), if_pos (by norm_num)]
  · norm_num [accepted]
  · unfold accepted
    simp only
    rw [if_pos (by norm_num), show (11 / 10 - 1 : ℝ) = 1 / 10 by norm_num, abs_of_pos (by norm_num)]
    norm_num

/-- Build the cache of a lone particle. -/
noncomputable def hxBuild : List (List (List ℝ)) → List (List (ObjCache × List (V3 ℝ)))
  | [[[x]]] => [[(Classical.choose (hx_cache (fun _ => x) 1 one_pos (by norm_num)), [hxX 0])]]
  | _ => []

theorem hxBuild_ok : CycleOk hxPar [[1]] (fun dss => ∃ ds ∈ dss, ∃ d ∈ ds, 0 < d.n ∧ d.N = 1)
    (hxBuild, [List.replicate 50 [[0]]]) := by
  rintro h ⟨h1, h2⟩
  obtain ⟨x, rfl⟩ : ∃ x, h = [[[x]]] := by
    rcases h with _ | ⟨r, _ | ⟨r', h⟩⟩
    · simp at h1
    · rcases r with _ | ⟨l, _ | ⟨l', r⟩⟩
      · simp at h1
      · rcases l with _ | ⟨x, _ | ⟨y, l⟩⟩
        · simp at h1
        · exact ⟨x, rfl⟩
        · simp at h1
      · simp at h1
    · simp at h1
  have hx : 0 < x := h2 _ List.mem_cons_self _ List.mem_cons_self _ List.mem_cons_self
  have hc := Classical.choose_spec (hx_cache (fun _ => x) 1 one_pos (by norm_num))
  have hw : cycleWorld hxBuild [[[x]]] = [[⟨Classical.choose (hx_cache (fun _ => x) 1 one_pos (by norm_num)),
      [hxX 0], [x], [x], [100]⟩]] := rfl
  generalize Classical.choose (hx_cache (fun _ => x) 1 one_pos (by norm_num)) = c at hc hw
  let d : PData := ⟨1, 1, hxX, fun _ => x⟩
  refine ⟨[[d]], ?_, ?_, ⟨[d], List.mem_cons_self, d, List.mem_cons_self, one_pos, rfl⟩, rfl⟩
  · rw [hw]
    refine ⟨rfl, ?_⟩
    intro r ds st h3 h4
    cases r with
    | succ r => simp at h3
    | zero =>
      simp only [List.getElem?_cons_zero, Option.some.injEq] at h3 h4
      subst h3 h4
      refine ⟨rfl, ?_⟩
      intro i d' p' h5 h6
      cases i with
      | succ i => simp at h5
      | zero =>
        simp only [List.getElem?_cons_zero, Option.some.injEq] at h5 h6
        subst h5 h6
        refine ⟨⟨le_rfl, fun i hi => ?_, fun i _ => hx, rfl, hc⟩, rfl, rfl⟩
        have : i = 0 := by have : i < 1 := hi; omega
        subst this
        rfl
  · refine ⟨rfl, ?_⟩
    intro r ds os h3 h4
    cases r with
    | succ r => simp at h3
    | zero =>
      simp only [List.getElem?_cons_zero, Option.some.injEq] at h3 h4
      subst h3 h4
      refine ⟨by simp, fun o ho => ?_⟩
      rw [List.eq_of_mem_replicate ho]
      refine ⟨rfl, ?_⟩
      intro i d' l h5 h6
      cases i with
      | succ i => simp at h5
      | zero =>
        simp only [List.getElem?_cons_zero, Option.some.injEq] at h5 h6
        subst h5 h6
        show List.Perm [0] (List.range 1)
        decide

/-- A lone particle with the default parameters: a hundred cycles of fifty iterations give up. -/
example : ∃ h', prestep hxPar (List.replicate 100 (hxBuild, [List.replicate 50 [[0]]])) [[[1]]]
    = some (h', none) := by
  refine C65_gives_up hx_ok hx_bell (by norm_num [hxPar]) (by norm_num [hxPar]) [[1]] _
    (fun c hc => ?_) _ ⟨rfl, ?_⟩
  · rw [List.eq_of_mem_replicate hc]; exact hxBuild_ok
  · simp

end Shamrock.Smooth
