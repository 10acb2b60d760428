import Verif.Proof.SphSmooth
import Verif.Props.NeighCache

/-! # Smoothing length iteration: steps, loops -/

namespace Shamrock.Smooth

open Shamrock.Kern

open Classical in
/-- Newton's proposal for the function value `F` and the slope `D` at `h`, limited to a factor `g`
either way; with a vanishing slope it is the limit on the side of the sign of `F`, if there is one. -/
noncomputable def proposal (F D h g : ℝ) : Option ℝ :=
  if D ≠ 0 then some (max (h / g) (min (g * h) (h - F / D)))
  else if 0 < F then some (h / g) else if F < 0 then some (g * h) else none

open Classical in
/-- A proposal is accepted below `t` times the initial length `h0`; the change relative to `h0` is
recorded with it.  Otherwise the length is set to that bound, and `-1` is recorded. -/
noncomputable def accepted (h h0 t : ℝ) : Option ℝ → ℝ × ℝ
  | some x => if x < h0 * t then (x, |x - h| / h0) else (h0 * t, -1)
  | none => (h0 * t, -1)

/-- The particles of one patch: `n` of its own among `N`, positions, initial smoothing lengths. -/
structure PData where
  n : Nat
  N : Nat
  X : Nat → V3 ℝ
  H : Nat → ℝ

open Classical in
/-- What happens to the length and the recorded change of particle `a` in one iteration. -/
noncomputable def oneStep (P : Par) (d : PData) (a : Nat) (s : ℝ × ℝ) : ℝ × ℝ :=
  if 1 / 1000000 < s.2 then
    accepted s.1 (d.H a) P.hTot
      (proposal (resid P.K P.m d.X d.N a s.1) (slope P.K P.m d.X d.N a s.1) s.1 P.hIter)
  else s

/-- Sensible parameters. -/
structure ParOk (P : Par) : Prop where
  ker : P.K ∈ kernels
  mass : 0 < P.m
  tot : 1 ≤ P.hTot
  iter : 1 ≤ P.hIter
  eps : 0 < P.epsH
  big : P.epsH ≤ P.big

/-- The patch holds the particles `d`, and a neighbour cache built for the initial lengths. -/
structure CacheOk (P : Par) (d : PData) (p : HPatch) : Prop where
  le : d.n ≤ d.N
  pos : ∀ i < d.N, p.pos[i]? = some (d.X i)
  hpos : ∀ i < d.N, 0 < d.H i
  old : p.hOld = (List.range d.n).map d.H
  cache : NeighSpec (exactSph P.hTot P.K.Rkern) d.X d.H d.n d.N p.cache

/-- The lengths and recorded changes of the patch are `S`. -/
def Rep (d : PData) (p : HPatch) (S : Nat → ℝ × ℝ) : Prop :=
  p.hNew = (List.range d.n).map (fun a => (S a).1) ∧ p.eps = (List.range d.n).map (fun a => (S a).2)

/-- Lengths are positive and within the reach of the cache; changes are `-1` or not negative. -/
def Good (P : Par) (d : PData) (a : Nat) (s : ℝ × ℝ) : Prop :=
  0 < s.1 ∧ s.1 ≤ d.H a * P.hTot ∧ (s.2 = -1 ∨ 0 ≤ s.2)

/-! ### One step -/

theorem newton_limit {F D h g : ℝ} (hh : 0 < h) (hg : 1 ≤ g) :
    (∃ x, proposal F D h g = some x ∧ limitIter g h (subFrom h (extDiv F D)) = .fin x) ∨
    (proposal F D h g = none ∧ limitIter g h (subFrom h (extDiv F D)) = .nan) := by
  have hle : h / g ≤ g * h := by
    rw [div_le_iff₀ (by linarith)]
    nlinarith [mul_le_mul_of_nonneg_left hg (mul_nonneg (by linarith : (0:ℝ) ≤ g) hh.le),
      mul_le_mul_of_nonneg_right hg hh.le]
  have e1 : h * (1 / g) = h / g := by ring
  have e2 : 1 / g * h = h / g := by ring
  have e3 : h * g = g * h := by ring
  unfold proposal limitIter extDiv
  simp only [e1, e2, e3]
  by_cases hD : D = 0
  · subst hD
    simp only [ne_eq, not_true_eq_false, if_false, if_true]
    rcases lt_trichotomy F 0 with hF | hF | hF
    · left
      refine ⟨g * h, by rw [if_neg (by linarith), if_pos hF], ?_⟩
      rw [if_neg hF.ne, if_neg (not_lt.2 hF.le)]
      simp [subFrom, Ext.lt, Ext.gt]
    · right
      subst hF
      simp [subFrom, Ext.lt, Ext.gt]
    · left
      refine ⟨h / g, by rw [if_pos hF], ?_⟩
      rw [if_neg hF.ne', if_pos hF]
      simp only [subFrom, Ext.lt, if_true, Ext.gt]
      rw [if_neg]
      simpa using hle
  · left
    refine ⟨_, if_pos hD, ?_⟩
    rw [if_neg hD]
    generalize hy : h - F / D = y
    simp only [subFrom, hy, Ext.lt, decide_eq_true_eq]
    split
    · next hlt =>
      simp only [Ext.gt, decide_eq_true_eq]
      rw [if_neg (by linarith), min_eq_right (by linarith), max_eq_left hlt.le]
    · next hlt =>
      simp only [Ext.gt, decide_eq_true_eq]
      push Not at hlt
      split
      · next hgt => rw [min_eq_left hgt.le, max_eq_right hle]
      · next hgt =>
        push Not at hgt
        rw [min_eq_right hgt, max_eq_right hlt]

theorem store_accepted {F D h g h0 t : ℝ} (hh : 0 < h) (hg : 1 ≤ g) :
    store t h h0 (limitIter g h (subFrom h (extDiv F D))) = accepted h h0 t (proposal F D h g) := by
  rcases newton_limit (F := F) (D := D) hh hg with ⟨x, h1, h2⟩ | ⟨h1, h2⟩
  · rw [h1, h2]; rfl
  · rw [h1, h2]; rfl

theorem proposal_bounds {F D h g x : ℝ} (hh : 0 < h) (hg : 1 ≤ g) (hx : proposal F D h g = some x) :
    h / g ≤ x ∧ x ≤ g * h := by
  have hle : h / g ≤ g * h := by
    rw [div_le_iff₀ (by linarith)]
    nlinarith [mul_le_mul_of_nonneg_left hg (mul_nonneg (by linarith : (0:ℝ) ≤ g) hh.le),
      mul_le_mul_of_nonneg_right hg hh.le]
  unfold proposal at hx
  split at hx
  · rw [Option.some.injEq] at hx
    subst hx
    exact ⟨le_max_left _ _, max_le hle (min_le_left _ _)⟩
  · split at hx
    · rw [Option.some.injEq] at hx; subst hx; exact ⟨le_rfl, hle⟩
    · split at hx
      · rw [Option.some.injEq] at hx; subst hx; exact ⟨hle, le_rfl⟩
      · exact absurd hx (by simp)

theorem Good.step {P : Par} (hP : ParOk P) {d : PData} {a : Nat} (hH : 0 < d.H a) {s : ℝ × ℝ}
    (hs : Good P d a s) : Good P d a (oneStep P d a s) := by
  unfold oneStep
  split
  · have ht := hP.tot
    have hb : 0 < d.H a * P.hTot := mul_pos hH (by linarith)
    unfold accepted
    split
    · next x hx =>
      have hbd := proposal_bounds hs.1 hP.iter hx
      split
      · next hlt =>
        refine ⟨lt_of_lt_of_le (div_pos hs.1 (by linarith [hP.iter])) hbd.1, hlt.le, Or.inr ?_⟩
        exact div_nonneg (abs_nonneg _) hH.le
      · exact ⟨hb, le_rfl, Or.inl rfl⟩
    · exact ⟨hb, le_rfl, Or.inl rfl⟩
  · exact hs

/-! ### The kernel on a patch -/

/-- The neighbour loop of the cache gives the sums over all particles. -/
theorem cache_sums {P : Par} (hP : ParOk P) {d : PData} {p : HPatch} (hc : CacheOk P d p) {a : Nat}
    (ha : a < d.n) : ∃ ids, p.cache.forEach a = some ids ∧ ∀ h, 0 < h → h ≤ d.H a * P.hTot →
      sums P.K P.m p.pos (d.X a) h ids = some (dens P.K P.m d.X d.N a h, slopeW P.K P.m d.X d.N a h) := by
  have hR := Rk_pos hP.ker
  have ht : 0 ≤ P.hTot := by linarith [hP.tot]
  obtain ⟨ids, i1, i2, i3⟩ := C54_exact P.hTot P.K.Rkern ht hR.le d.X d.H d.n d.N hc.le
    (fun i hi => (hc.hpos i hi).le) p.cache hc.cache a ha
  refine ⟨ids, i1, fun h hh hle => ?_⟩
  refine sums_full hP.ker P.m d.X d.N a hh p.pos hc.pos ids i2 (fun b hb => ((i3 b).1 hb).1) ?_
  intro b hb hd
  refine (i3 b).2 ⟨hb, ?_⟩
  unfold inKernel
  have haN : a < d.N := by have := hc.le; omega
  have e : h ≤ P.hTot * max (d.H a) (d.H b) := by
    calc h ≤ d.H a * P.hTot := hle
      _ = P.hTot * d.H a := mul_comm _ _
      _ ≤ _ := mul_le_mul_of_nonneg_left (le_max_left _ _) ht
  have e2 : P.K.Rkern * h ≤ P.K.Rkern * (P.hTot * max (d.H a) (d.H b)) :=
    mul_le_mul_of_nonneg_left e hR.le
  have e3 : (P.K.Rkern * h) ^ 2 ≤ (P.K.Rkern * (P.hTot * max (d.H a) (d.H b))) ^ 2 :=
    pow_le_pow_left₀ (by positivity) e2 2
  unfold dist2 at hd
  nlinarith

theorem map_set {α : Type} (n a : Nat) (f : Nat → α) (v : α) :
    ((List.range n).map f).set a v = (List.range n).map (Function.update f a v) := by
  apply List.ext_getElem?
  intro i
  by_cases hi : i < n
  · rw [List.getElem?_set]
    by_cases e : a = i
    · subst e
      simp [hi]
    · rw [if_neg e]
      simp [hi, Function.update_of_ne (Ne.symm e)]
  · rw [List.getElem?_eq_none (by simp; omega), List.getElem?_eq_none (by simp; omega)]

theorem item_ok {P : Par} (hP : ParOk P) {d : PData} {p : HPatch} (hc : CacheOk P d p) {a : Nat}
    (ha : a < d.n) (S : Nat → ℝ × ℝ) (hS : Good P d a (S a)) :
    item P p.cache p.pos p.hOld ((List.range d.n).map (fun a => (S a).1),
        (List.range d.n).map (fun a => (S a).2)) a
      = some ((List.range d.n).map (fun b => (Function.update S a (oneStep P d a (S a)) b).1),
        (List.range d.n).map (fun b => (Function.update S a (oneStep P d a (S a)) b).2)) := by
  have hg : ∀ f : Nat → ℝ, ((List.range d.n).map f)[a]? = some (f a) := by
    intro f; simp [ha]
  have haN : a < d.N := by have := hc.le; omega
  unfold item
  simp only [hg, Option.bind_eq_bind, Option.bind_some, hc.pos a haN]
  unfold oneStep
  split
  · obtain ⟨ids, i1, i2⟩ := cache_sums hP hc ha
    rw [i1, Option.bind_some, i2 _ hS.1 hS.2.1, Option.bind_some, hc.old, hg, Option.bind_some]
    have e := store_accepted (F := resid P.K P.m d.X d.N a (S a).1)
      (D := slope P.K P.m d.X d.N a (S a).1) (h0 := d.H a) (t := P.hTot) hS.1 hP.iter
    simp only [newtonNewH]
    rw [show dens P.K P.m d.X d.N a (S a).1 - rhoH P.m (S a).1 P.K.hfactd
        = resid P.K P.m d.X d.N a (S a).1 from rfl,
      show slopeW P.K P.m d.X d.N a (S a).1 + 3 * rhoH P.m (S a).1 P.K.hfactd / (S a).1
        = slope P.K P.m d.X d.N a (S a).1 from rfl, e, map_set, map_set]
    rw [Option.pure_def, Option.some.injEq, Prod.mk.injEq]
    constructor
    · refine List.map_congr_left fun b _ => ?_
      by_cases hb : b = a
      · subst hb; simp
      · simp [Function.update_of_ne hb]
    · refine List.map_congr_left fun b _ => ?_
      by_cases hb : b = a
      · subst hb; simp
      · simp [Function.update_of_ne hb]
  · rw [Function.update_eq_self]; rfl

theorem fold_ok {P : Par} (hP : ParOk P) {d : PData} {p : HPatch} (hc : CacheOk P d p)
    (order : List Nat) (hnd : order.Nodup) (hlt : ∀ a ∈ order, a < d.n) (S : Nat → ℝ × ℝ)
    (hS : ∀ a ∈ order, Good P d a (S a)) :
    order.foldlM (item P p.cache p.pos p.hOld) ((List.range d.n).map (fun a => (S a).1),
        (List.range d.n).map (fun a => (S a).2))
      = some ((List.range d.n).map (fun b => (if b ∈ order then oneStep P d b (S b) else S b).1),
        (List.range d.n).map (fun b => (if b ∈ order then oneStep P d b (S b) else S b).2)) := by
  induction order generalizing S with
  | nil => simp
  | cons a l ih =>
    rw [List.nodup_cons] at hnd
    rw [List.foldlM_cons, item_ok hP hc (hlt a List.mem_cons_self) S (hS a List.mem_cons_self),
      Option.bind_eq_bind, Option.bind_some]
    have hne : ∀ b ∈ l, b ≠ a := fun b hb e => hnd.1 (e ▸ hb)
    rw [ih hnd.2 (fun b hb => hlt b (List.mem_cons_of_mem _ hb)) _ (fun b hb => by
      rw [Function.update_of_ne (hne b hb)]; exact hS b (List.mem_cons_of_mem _ hb))]
    have key : ∀ b, (if b ∈ l then oneStep P d b (Function.update S a (oneStep P d a (S a)) b)
        else Function.update S a (oneStep P d a (S a)) b)
        = if b ∈ a :: l then oneStep P d b (S b) else S b := by
      intro b
      by_cases hb : b = a
      · subst hb; simp [hnd.1]
      · simp [Function.update_of_ne hb, hb]
    simp only [key]

theorem evalPatch_ok {P : Par} (hP : ParOk P) {d : PData} {p : HPatch} (hc : CacheOk P d p)
    (order : List Nat) (ho : order.Perm (List.range d.n)) (S : Nat → ℝ × ℝ) (hr : Rep d p S)
    (hS : ∀ a < d.n, Good P d a (S a)) :
    ∃ p', evalPatch P order p = some p' ∧ CacheOk P d p' ∧ Rep d p' (fun a => oneStep P d a (S a)) := by
  have hm : ∀ a, a ∈ order ↔ a < d.n := fun a => by rw [ho.mem_iff, List.mem_range]
  have := fold_ok hP hc order (ho.nodup_iff.2 List.nodup_range) (fun a ha => (hm a).1 ha) S
    (fun a ha => hS a ((hm a).1 ha))
  unfold evalPatch
  rw [hr.1, hr.2, this]
  refine ⟨_, rfl, ⟨hc.le, hc.pos, hc.hpos, hc.old, hc.cache⟩, ?_, ?_⟩
  · refine List.map_congr_left fun b hb => ?_
    rw [if_pos ((hm b).2 (List.mem_range.1 hb))]
  · refine List.map_congr_left fun b hb => ?_
    rw [if_pos ((hm b).2 (List.mem_range.1 hb))]

/-! ### A rank -/

/-- A patch in a good state. -/
def POk (P : Par) (d : PData) (p : HPatch) (S : Nat → ℝ × ℝ) : Prop :=
  CacheOk P d p ∧ Rep d p S ∧ ∀ a < d.n, Good P d a (S a)

/-- All patches of a rank, with their states. -/
def ROk (P : Par) (ds : List PData) (st : List HPatch) (Ss : Nat → Nat → ℝ × ℝ) : Prop :=
  st.length = ds.length ∧ ∀ (i : Nat) (d : PData) (p : HPatch), ds[i]? = some d → st[i]? = some p → POk P d p (Ss i)

/-- Execution orders of one iteration on the patches of a rank. -/
def OrdOk (ds : List PData) (o : List (List Nat)) : Prop :=
  o.length = ds.length ∧ ∀ (i : Nat) (d : PData) (l : List Nat), ds[i]? = some d → o[i]? = some l → l.Perm (List.range d.n)

/-- One step of all particles of a rank. -/
noncomputable def stepAll (P : Par) (ds : List PData) (Ss : Nat → Nat → ℝ × ℝ) : Nat → Nat → ℝ × ℝ :=
  fun i a => match ds[i]? with
    | some d => oneStep P d a (Ss i a)
    | none => Ss i a

theorem mapM_get {α β : Type} (f : α → Option β) (l : List α)
    (h : ∀ (i : Nat) (x : α), l[i]? = some x → ∃ y, f x = some y) :
    ∃ r, l.mapM f = some r ∧ r.length = l.length ∧ ∀ (i : Nat) (x : α) (y : β), l[i]? = some x → r[i]? = some y → f x = some y := by
  induction l with
  | nil => exact ⟨[], rfl, rfl, fun i x y h => by simp at h⟩
  | cons a l ih =>
    obtain ⟨y, hy⟩ := h 0 a rfl
    obtain ⟨r, r1, r2, r3⟩ := ih (fun i x hx => h (i + 1) x hx)
    refine ⟨y :: r, ?_, by simp [r2], ?_⟩
    · rw [List.mapM_cons, hy, r1]; rfl
    · intro i x z hx hz
      cases i with
      | zero => simp at hx hz; subst hx hz; exact hy
      | succ i => exact r3 i x z hx hz

theorem evaluate_ok {P : Par} (hP : ParOk P) {ds : List PData} {st : List HPatch}
    {Ss : Nat → Nat → ℝ × ℝ} (hR : ROk P ds st Ss) (o : List (List Nat)) (ho : OrdOk ds o) :
    ∃ st', evaluate P o st = some st' ∧ ROk P ds st' (stepAll P ds Ss) := by
  have hlen : (o.zip st).length = ds.length := by
    rw [List.length_zip, ho.1, hR.1, Nat.min_self]
  have step : ∀ i l p, (o.zip st)[i]? = some (l, p) → ∃ d, ds[i]? = some d ∧
      ∃ p', evalPatch P l p = some p' ∧ POk P d p' (stepAll P ds Ss i) := by
    intro i l p h
    rw [List.getElem?_zip_eq_some] at h
    have hi : i < ds.length := by
      rw [← hR.1]; exact (List.getElem?_eq_some_iff.1 h.2).1
    have hd : ds[i]? = some ds[i] := List.getElem?_eq_getElem hi
    refine ⟨ds[i], hd, ?_⟩
    obtain ⟨c1, c2, c3⟩ := hR.2 i _ p hd h.2
    obtain ⟨p', e1, e2, e3⟩ := evalPatch_ok hP c1 l (ho.2 i _ l hd h.1) _ c2 c3
    have es : ∀ a, stepAll P ds Ss i a = oneStep P ds[i] a (Ss i a) := by
      intro a; unfold stepAll; rw [hd]
    refine ⟨p', e1, e2, ?_, fun a ha => ?_⟩
    · unfold Rep; simp only [es]; exact e3
    · rw [es]
      exact (c3 a ha).step hP (c1.hpos a (by have := c1.le; omega))
  obtain ⟨st', s1, s2, s3⟩ := mapM_get (fun op : List Nat × HPatch => evalPatch P op.1 op.2) (o.zip st)
    (fun i x hx => by
      obtain ⟨d, hd, p', h1, h2⟩ := step i x.1 x.2 hx
      exact ⟨p', h1⟩)
  refine ⟨st', s1, by rw [s2, hlen], ?_⟩
  intro i d p hd hp
  have hi : i < (o.zip st).length := by
    rw [hlen]; exact (List.getElem?_eq_some_iff.1 hd).1
  have hx : (o.zip st)[i]? = some (o.zip st)[i] := List.getElem?_eq_getElem hi
  obtain ⟨d', hd', p', h1, h2⟩ := step i _ _ hx
  have e := h1.symm.trans (s3 i _ p hx hp)
  rw [hd, Option.some.injEq] at hd'
  rw [Option.some.injEq] at e
  subst hd' e
  exact h2

theorem foldl_max_lt (l : List ℝ) (a e : ℝ) : l.foldl max a < e ↔ a < e ∧ ∀ x ∈ l, x < e := by
  induction l generalizing a with
  | nil => simp
  | cons x l ih => rw [List.foldl_cons, ih]; simp [and_assoc]

theorem foldl_min_lt (l : List ℝ) (a e : ℝ) : l.foldl min a < e ↔ a < e ∨ ∃ x ∈ l, x < e := by
  induction l generalizing a with
  | nil => simp
  | cons x l ih => rw [List.foldl_cons, ih]; simp [or_assoc]

theorem rankMax_lt {P : Par} (hP : ParOk P) (st : List HPatch) :
    rankMax P.big st < P.epsH ↔ ∀ p ∈ st, ∀ e ∈ p.eps, e < P.epsH := by
  have h0 : -P.big < P.epsH := by have := hP.eps; have := hP.big; linarith
  have key : ∀ a, st.foldl (fun r p => max r (p.eps.foldl max (-P.big))) a < P.epsH ↔
      a < P.epsH ∧ ∀ p ∈ st, ∀ e ∈ p.eps, e < P.epsH := by
    induction st with
    | nil => simp
    | cons p l ih =>
      intro a
      rw [List.foldl_cons, ih, max_lt_iff, foldl_max_lt]
      simp [h0, and_assoc]
  unfold rankMax
  rw [key]
  simp [h0]

theorem rankMin_lt {P : Par} (hP : ParOk P) (st : List HPatch) :
    rankMin P.big st < 0 ↔ ∃ p ∈ st, ∃ e ∈ p.eps, e < 0 := by
  have h0 : ¬ P.big < 0 := by have := hP.eps; have := hP.big; linarith
  have key : ∀ a, st.foldl (fun r p => min r (p.eps.foldl min P.big)) a < 0 ↔
      a < 0 ∨ ∃ p ∈ st, ∃ e ∈ p.eps, e < 0 := by
    induction st with
    | nil => simp
    | cons p l ih =>
      intro a
      rw [List.foldl_cons, ih, min_lt_iff, foldl_min_lt]
      simp [h0, or_assoc]
  unfold rankMin
  rw [key]
  simp [h0]

/-- All recorded changes of the rank satisfy `q`. -/
def AllE (ds : List PData) (Ss : Nat → Nat → ℝ × ℝ) (q : ℝ → Prop) : Prop :=
  ∀ (i : Nat) (d : PData), ds[i]? = some d → ∀ a < d.n, q (Ss i a).2

theorem ROk.allE {P : Par} {ds : List PData} {st : List HPatch} {Ss : Nat → Nat → ℝ × ℝ}
    (hR : ROk P ds st Ss) (q : ℝ → Prop) : (∀ p ∈ st, ∀ e ∈ p.eps, q e) ↔ AllE ds Ss q := by
  constructor
  · intro h i d hd a ha
    have hi : i < st.length := by rw [hR.1]; exact (List.getElem?_eq_some_iff.1 hd).1
    have hp : st[i]? = some st[i] := List.getElem?_eq_getElem hi
    have := (hR.2 i d _ hd hp).2.1.2
    refine h st[i] (List.getElem_mem hi) _ ?_
    rw [this]
    exact List.mem_map.2 ⟨a, List.mem_range.2 ha, rfl⟩
  · intro h p hp e he
    obtain ⟨i, hi, rfl⟩ := List.getElem_of_mem hp
    have hi' : i < ds.length := by rw [← hR.1]; exact hi
    have hd : ds[i]? = some ds[i] := List.getElem?_eq_getElem hi'
    have := (hR.2 i _ _ hd (List.getElem?_eq_getElem hi)).2.1.2
    rw [this] at he
    obtain ⟨a, ha, rfl⟩ := List.mem_map.1 he
    exact h i _ hd a (List.mem_range.1 ha)

/-- The loop does some number of iterations; it stops early only when all changes are below the
tolerance. -/
theorem iterLoop_ok {P : Par} (hP : ParOk P) {ds : List PData} (os : List (List (List Nat)))
    (ho : ∀ o ∈ os, OrdOk ds o) {st : List HPatch} {Ss : Nat → Nat → ℝ × ℝ} (hR : ROk P ds st Ss)
    (mx : ℝ) (hne : os ≠ []) :
    ∃ k st' mx', iterLoop P os (st, mx) = some (st', mx') ∧ 1 ≤ k ∧ k ≤ os.length ∧
      ROk P ds st' ((stepAll P ds)^[k] Ss) ∧
      (mx' < P.epsH ↔ AllE ds ((stepAll P ds)^[k] Ss) (· < P.epsH)) ∧
      (∀ j, 1 ≤ j → j < k → ¬ AllE ds ((stepAll P ds)^[j] Ss) (· < P.epsH)) ∧
      (k = os.length ∨ AllE ds ((stepAll P ds)^[k] Ss) (· < P.epsH)) := by
  induction os generalizing st Ss mx with
  | nil => exact absurd rfl hne
  | cons o os ih =>
    obtain ⟨st1, h1, h2⟩ := evaluate_ok hP hR o (ho o List.mem_cons_self)
    have hmx : rankMax P.big st1 < P.epsH ↔ AllE ds (stepAll P ds Ss) (· < P.epsH) := by
      rw [rankMax_lt hP, h2.allE]
    by_cases hc : rankMax P.big st1 < P.epsH
    · refine ⟨1, st1, _, ?_, le_rfl, by simp, h2, hmx, fun j h h' => by omega, Or.inr (hmx.1 hc)⟩
      simp only [iterLoop, h1, Option.bind_eq_bind, Option.bind_some]
      rw [if_pos hc]; rfl
    · cases os with
      | nil =>
        refine ⟨1, st1, rankMax P.big st1, ?_, le_rfl, by simp, h2, hmx, fun j h h' => by omega,
          Or.inl rfl⟩
        simp only [iterLoop, h1, Option.bind_eq_bind, Option.bind_some]
        rw [if_neg hc]
      | cons o' os =>
        obtain ⟨k, st', mx', e1, e2, e3, e4, e5, e6, e7⟩ := ih
          (fun o h => ho o (List.mem_cons_of_mem _ h)) h2 (rankMax P.big st1) (by simp)
        refine ⟨k + 1, st', mx', ?_, by omega, by simp at e3 ⊢; omega, e4, e5, ?_, ?_⟩
        · rw [iterLoop, h1, Option.bind_eq_bind, Option.bind_some]
          simp only [if_neg hc]
          exact e1
        · intro j hj hjk
          by_cases hj1 : j = 1
          · subst hj1; exact fun h => hc (hmx.2 h)
          · obtain ⟨j, rfl⟩ : ∃ j', j = j' + 1 := ⟨j - 1, by omega⟩
            exact e6 j (by omega) (by omega)
        · rcases e7 with h | h
          · left; simp at h ⊢; omega
          · exact Or.inr h

open Classical in
theorem rankLoop_ok {P : Par} (hP : ParOk P) {ds : List PData} (os : List (List (List Nat)))
    (ho : ∀ o ∈ os, OrdOk ds o) {st : List HPatch} {Ss : Nat → Nat → ℝ × ℝ} (hR : ROk P ds st Ss)
    (hne : os ≠ []) :
    ∃ k st' cv, rankLoop P os st = some (st', cv) ∧ 1 ≤ k ∧ k ≤ os.length ∧
      ROk P ds st' ((stepAll P ds)^[k] Ss) ∧
      (cv = true ↔ AllE ds ((stepAll P ds)^[k] Ss) (fun e => 0 ≤ e ∧ e < P.epsH)) ∧
      (∀ j, 1 ≤ j → j < k → ¬ AllE ds ((stepAll P ds)^[j] Ss) (· < P.epsH)) ∧
      (k = os.length ∨ AllE ds ((stepAll P ds)^[k] Ss) (· < P.epsH)) := by
  obtain ⟨k, st', mx', e1, e2, e3, e4, e5, e6, e7⟩ := iterLoop_ok hP os ho hR P.big hne
  have hmin : rankMin P.big st' < 0 ↔ ¬ AllE ds ((stepAll P ds)^[k] Ss) (fun e => 0 ≤ e) := by
    rw [rankMin_lt hP, ← e4.allE]
    push Not
    rfl
  refine ⟨k, st', (decide (mx' < P.epsH) && !decide (rankMin P.big st' < 0)), ?_, e2, e3, e4, ?_, e6, e7⟩
  · unfold rankLoop
    rw [e1]; rfl
  · rw [Bool.and_eq_true, decide_eq_true_iff, Bool.not_eq_true', decide_eq_false_iff_not, e5, hmin,
      not_not]
    unfold AllE
    constructor
    · rintro ⟨h1, h2⟩ i d hd a ha
      exact ⟨h2 i d hd a ha, h1 i d hd a ha⟩
    · intro h
      exact ⟨fun i d hd a ha => (h i d hd a ha).2, fun i d hd a ha => (h i d hd a ha).1⟩

/-! ### All ranks -/

/-- All patches of all ranks, with their states. -/
def WOk (P : Par) (dss : List (List PData)) (w : List (List HPatch)) (SS : Nat → Nat → Nat → ℝ × ℝ) : Prop :=
  w.length = dss.length ∧ ∀ (r : Nat) (ds : List PData) (st : List HPatch), dss[r]? = some ds →
    w[r]? = some st → ROk P ds st (SS r)

/-- Execution orders of one evaluation of the node: per rank at least one iteration. -/
def WOrd (dss : List (List PData)) (orders : List (List (List (List Nat)))) : Prop :=
  orders.length = dss.length ∧ ∀ (r : Nat) (ds : List PData) (os : List (List (List Nat))),
    dss[r]? = some ds → orders[r]? = some os → os ≠ [] ∧ ∀ o ∈ os, OrdOk ds o

theorem stepAll_iter (P : Par) (ds : List PData) (i : Nat) (d : PData) (hd : ds[i]? = some d) (k : Nat)
    (Ss : Nat → Nat → ℝ × ℝ) (a : Nat) :
    ((stepAll P ds)^[k] Ss) i a = (oneStep P d a)^[k] (Ss i a) := by
  induction k generalizing Ss with
  | zero => rfl
  | succ k ih =>
    rw [Function.iterate_succ_apply, ih, Function.iterate_succ_apply]
    congr 1
    unfold stepAll
    rw [hd]

theorem worldLoop_ok {P : Par} (hP : ParOk P) {dss : List (List PData)} {w : List (List HPatch)}
    {SS : Nat → Nat → Nat → ℝ × ℝ} (hW : WOk P dss w SS) (orders : List (List (List (List Nat))))
    (ho : WOrd dss orders) :
    ∃ (w' : List (List HPatch)) (cv : Bool) (ks : Nat → Nat), worldLoop P orders w = some (w', cv) ∧
      WOk P dss w' (fun r => (stepAll P (dss[r]?.getD []))^[ks r] (SS r)) ∧
      (∀ (r : Nat) (os : List (List (List Nat))), orders[r]? = some os → 1 ≤ ks r ∧ ks r ≤ os.length ∧
        ∀ ds, dss[r]? = some ds →
        (∀ j, 1 ≤ j → j < ks r → ¬ AllE ds ((stepAll P ds)^[j] (SS r)) (· < P.epsH)) ∧
        (ks r = os.length ∨ AllE ds ((stepAll P ds)^[ks r] (SS r)) (· < P.epsH))) ∧
      (cv = true ↔ ∀ (r : Nat) (ds : List PData), dss[r]? = some ds →
        AllE ds ((stepAll P ds)^[ks r] (SS r)) (fun e => 0 ≤ e ∧ e < P.epsH)) := by
  have hlen : (orders.zip w).length = dss.length := by
    rw [List.length_zip, ho.1, hW.1, Nat.min_self]
  have step : ∀ r : Nat, ∃ k, ∀ ds os st, dss[r]? = some ds → orders[r]? = some os → w[r]? = some st →
      ∃ st' cv, rankLoop P os st = some (st', cv) ∧ 1 ≤ k ∧ k ≤ os.length ∧
      ROk P ds st' ((stepAll P ds)^[k] (SS r)) ∧
      (cv = true ↔ AllE ds ((stepAll P ds)^[k] (SS r)) (fun e => 0 ≤ e ∧ e < P.epsH)) ∧
      (∀ j, 1 ≤ j → j < k → ¬ AllE ds ((stepAll P ds)^[j] (SS r)) (· < P.epsH)) ∧
      (k = os.length ∨ AllE ds ((stepAll P ds)^[k] (SS r)) (· < P.epsH)) := by
    intro r
    by_cases hr : r < dss.length
    · have h1 : dss[r]? = some dss[r] := List.getElem?_eq_getElem hr
      have h2 : orders[r]? = some (orders[r]'(by rw [ho.1]; exact hr)) :=
        List.getElem?_eq_getElem (by rw [ho.1]; exact hr)
      have h3 : w[r]? = some (w[r]'(by rw [hW.1]; exact hr)) :=
        List.getElem?_eq_getElem (by rw [hW.1]; exact hr)
      obtain ⟨n1, n2⟩ := ho.2 r _ _ h1 h2
      obtain ⟨k, rest⟩ := rankLoop_ok hP _ n2 (hW.2 r _ _ h1 h3) n1
      refine ⟨k, ?_⟩
      intro ds os st e1 e2 e3
      rw [h1, Option.some.injEq] at e1
      rw [h2, Option.some.injEq] at e2
      rw [h3, Option.some.injEq] at e3
      subst e1 e2 e3
      exact rest
    · refine ⟨0, fun ds os st e1 => ?_⟩
      rw [List.getElem?_eq_none (by omega)] at e1
      exact absurd e1 (by simp)
  choose ks hks using step
  have ex : ∀ (r : Nat) (x : List (List (List Nat)) × List HPatch), (orders.zip w)[r]? = some x →
      ∃ ds, dss[r]? = some ds ∧ orders[r]? = some x.1 ∧ w[r]? = some x.2 := by
    intro r x hx
    have hr : r < dss.length := by rw [← hlen]; exact (List.getElem?_eq_some_iff.1 hx).1
    rw [List.getElem?_zip_eq_some] at hx
    exact ⟨dss[r], List.getElem?_eq_getElem hr, hx.1, hx.2⟩
  obtain ⟨rs, r1, r2, r3⟩ := mapM_get
    (fun os : List (List (List Nat)) × List HPatch => rankLoop P os.1 os.2) (orders.zip w)
    (fun r x hx => by
      obtain ⟨ds, h1, h2, h3⟩ := ex r x hx
      obtain ⟨st', cv, e, _⟩ := hks r ds x.1 x.2 h1 h2 h3
      exact ⟨_, e⟩)
  have full : ∀ (r : Nat) (ds : List PData), dss[r]? = some ds → ∃ os st, orders[r]? = some os ∧
      w[r]? = some st ∧ ∃ st' cv, rs[r]? = some (st', cv) ∧ rankLoop P os st = some (st', cv) := by
    intro r ds hd
    have hr : r < (orders.zip w).length := by rw [hlen]; exact (List.getElem?_eq_some_iff.1 hd).1
    have hx : (orders.zip w)[r]? = some (orders.zip w)[r] := List.getElem?_eq_getElem hr
    have hy : rs[r]? = some (rs[r]'(by rw [r2]; exact hr)) := List.getElem?_eq_getElem _
    obtain ⟨ds', h1, h2, h3⟩ := ex r _ hx
    exact ⟨_, _, h2, h3, _, _, hy, r3 r _ _ hx hy⟩
  refine ⟨rs.map Prod.fst, (rs.map Prod.snd).all id, ks, ?_, ⟨?_, ?_⟩, ?_, ?_⟩
  · unfold worldLoop
    rw [r1]; rfl
  · rw [List.length_map, r2, hlen]
  · intro r ds st hd hst
    obtain ⟨os, st0, h2, h3, st', cv, e1, e2⟩ := full r ds hd
    obtain ⟨st'', cv', f1, _, _, f4, _⟩ := hks r ds os st0 hd h2 h3
    have e := e2.symm.trans f1
    rw [List.getElem?_map, e1, Option.map_some, Option.some.injEq] at hst
    rw [Option.some.injEq, Prod.mk.injEq] at e
    show ROk P ds st ((stepAll P (dss[r]?.getD []))^[ks r] (SS r))
    rw [hd, Option.getD_some, ← hst, e.1]
    exact f4
  · intro r os hos
    have hr : r < dss.length := by rw [← ho.1]; exact (List.getElem?_eq_some_iff.1 hos).1
    have hd : dss[r]? = some dss[r] := List.getElem?_eq_getElem hr
    obtain ⟨os', st0, h2, h3, st', cv, e1, e2⟩ := full r _ hd
    rw [hos, Option.some.injEq] at h2
    subst h2
    obtain ⟨st'', cv', f1, f2, f3, f4, f5, f6, f7⟩ := hks r _ os st0 hd hos h3
    refine ⟨f2, f3, fun ds hds => ?_⟩
    rw [hd, Option.some.injEq] at hds
    subst hds
    exact ⟨f6, f7⟩
  · rw [List.all_eq_true]
    constructor
    · intro h r ds hd
      obtain ⟨os, st0, h2, h3, st', cv, e1, e2⟩ := full r ds hd
      obtain ⟨st'', cv', f1, _, _, _, f5, _⟩ := hks r ds os st0 hd h2 h3
      have e := e2.symm.trans f1
      rw [Option.some.injEq, Prod.mk.injEq] at e
      refine f5.1 ?_
      rw [← e.2]
      exact h cv (List.mem_map.2 ⟨_, List.mem_of_getElem? e1, rfl⟩)
    · intro h c hc
      obtain ⟨⟨st', cv⟩, hm, rfl⟩ := List.mem_map.1 hc
      obtain ⟨r, hr, e0⟩ := List.getElem_of_mem hm
      have hr' : r < dss.length := by rw [← hlen, ← r2]; exact hr
      have hd : dss[r]? = some dss[r] := List.getElem?_eq_getElem hr'
      obtain ⟨os, st0, h2, h3, st1, cv1, e1, e2⟩ := full r _ hd
      obtain ⟨st'', cv', f1, _, _, _, f5, _⟩ := hks r _ os st0 hd h2 h3
      have e := e2.symm.trans f1
      rw [Option.some.injEq, Prod.mk.injEq] at e
      have e3 : (st', cv) = (st1, cv1) := by
        rw [← e0]
        rw [List.getElem?_eq_getElem hr, Option.some.injEq] at e1
        exact e1
      rw [Prod.mk.injEq] at e3
      show cv = true
      rw [e3.2, e.2]
      exact f5.2 (h r _ hd)

/-! ### Histories of one particle -/

/-- A particle whose change is recorded last got its state from one real step. -/
theorem last_step (P : Par) (d : PData) (a k : Nat) (s : ℝ × ℝ) :
    (oneStep P d a)^[k] s = s ∨ ∃ i < k, 1 / 1000000 < ((oneStep P d a)^[i] s).2 ∧
      (oneStep P d a)^[k] s = oneStep P d a ((oneStep P d a)^[i] s) := by
  induction k with
  | zero => exact Or.inl rfl
  | succ k ih =>
    rw [Function.iterate_succ_apply']
    by_cases hc : 1 / 1000000 < ((oneStep P d a)^[k] s).2
    · exact Or.inr ⟨k, by omega, hc, rfl⟩
    · have e : oneStep P d a ((oneStep P d a)^[k] s) = (oneStep P d a)^[k] s := by
        generalize (oneStep P d a)^[k] s = u at hc
        unfold oneStep
        rw [if_neg hc]
      rw [e]
      rcases ih with h | ⟨i, hi, h1, h2⟩
      · exact Or.inl h
      · exact Or.inr ⟨i, by omega, h1, h2⟩

theorem Good.iter {P : Par} (hP : ParOk P) {d : PData} {a : Nat} (hH : 0 < d.H a) {s : ℝ × ℝ}
    (hs : Good P d a s) (k : Nat) : Good P d a ((oneStep P d a)^[k] s) := by
  induction k with
  | zero => exact hs
  | succ k ih => rw [Function.iterate_succ_apply']; exact ih.step hP hH

/-- Lengths fall at most by the factor per iteration. -/
theorem lower_iter {P : Par} (hP : ParOk P) {d : PData} {a : Nat} (hH : 0 < d.H a) {s : ℝ × ℝ}
    (hs : Good P d a s) (h0 : d.H a ≤ s.1) (k : Nat) :
    d.H a ≤ P.hIter ^ k * ((oneStep P d a)^[k] s).1 := by
  have hg := hP.iter
  induction k with
  | zero => simpa using h0
  | succ k ih =>
    rw [Function.iterate_succ_apply']
    set u := (oneStep P d a)^[k] s with hu
    have hG : Good P d a u := hs.iter hP hH k
    have hp : (0 : ℝ) < P.hIter ^ k := by positivity
    have hp1 : (1 : ℝ) ≤ P.hIter ^ (k + 1) := one_le_pow₀ hg
    have key : u.1 / P.hIter ≤ (oneStep P d a u).1 ∨ d.H a ≤ (oneStep P d a u).1 := by
      unfold oneStep
      split
      · unfold accepted
        split
        · next x hx =>
          split
          · exact Or.inl (proposal_bounds hG.1 hg hx).1
          · right
            show d.H a ≤ d.H a * P.hTot
            nlinarith [hP.tot]
        · right
          show d.H a ≤ d.H a * P.hTot
          nlinarith [hP.tot]
      · left
        exact div_le_self hG.1.le hg
    rcases key with h | h
    · calc d.H a ≤ P.hIter ^ k * u.1 := ih
        _ = P.hIter ^ (k + 1) * (u.1 / P.hIter) := by field_simp; ring
        _ ≤ _ := mul_le_mul_of_nonneg_left h (by positivity)
    · have hpos : 0 ≤ (oneStep P d a u).1 := by linarith
      nlinarith

/-- A small accepted change is a full Newton step. -/
theorem full_newton {F D h h0 t g ε : ℝ} (hh : 0 < h) (hg : 1 ≤ g) (hh0 : 0 < h0)
    (hsmall : ε * h0 ≤ (1 - 1 / g) * h) (x e : ℝ)
    (hacc : accepted h h0 t (proposal F D h g) = (x, e)) (he0 : 0 ≤ e) (he : e < ε) :
    D ≠ 0 ∧ x = h - F / D ∧ e = |x - h| / h0 ∧ x < h0 * t := by
  have hgp : 0 < g := by linarith
  have hlow : (1 - 1 / g) * h = h - h / g := by ring
  have hup : h - h / g ≤ g * h - h := by
    rw [← hlow]
    have : 1 - 1 / g ≤ g - 1 := by
      have : 2 ≤ g + 1 / g := by
        rw [← sub_nonneg]
        have : g + 1 / g - 2 = (g - 1) ^ 2 / g := by field_simp; ring
        rw [this]; positivity
      linarith
    nlinarith
  unfold accepted at hacc
  split at hacc
  · next y hy =>
    split at hacc
    · next hlt =>
      rw [Prod.mk.injEq] at hacc
      obtain ⟨rfl, rfl⟩ := hacc
      have hab : |y - h| < h - h / g := by
        rw [div_lt_iff₀ hh0] at he
        linarith
      rw [abs_lt] at hab
      have hD : D ≠ 0 := by
        intro h0'
        unfold proposal at hy
        rw [if_neg (by simpa using h0')] at hy
        split at hy
        · rw [Option.some.injEq] at hy; linarith
        · split at hy
          · rw [Option.some.injEq] at hy; linarith
          · exact absurd hy (by simp)
      refine ⟨hD, ?_, rfl, hlt⟩
      unfold proposal at hy
      rw [if_pos hD, Option.some.injEq] at hy
      rcases max_choice (h / g) (min (g * h) (h - F / D)) with h1 | h1
      · rw [h1] at hy; linarith
      · rw [h1] at hy
        rcases min_choice (g * h) (h - F / D) with h2 | h2
        · rw [h2] at hy; linarith
        · rw [h2] at hy; exact hy.symm
    · rw [Prod.mk.injEq] at hacc; linarith
  · rw [Prod.mk.injEq] at hacc; linarith

end Shamrock.Smooth
