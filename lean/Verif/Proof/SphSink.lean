import Verif.Model.SphSink
import Verif.Proof.SphForce
import Verif.Props.Scan
/-! Sink particles: sums, accretion and forces. -/
namespace Shamrock.Sph

section
variable {K : Type} [Field K] [LinearOrder K] [IsStrictOrderedRing K]

/-- Specification: the sum over a list, component by component. -/
def tot {α : Type} (f : α → V3 K) (l : List α) : V3 K := ⟨(l.map fun p => (f p).x).sum, (l.map fun p => (f p).y).sum, (l.map fun p => (f p).z).sum⟩

/-- Specification: the sink that takes a particle: the first one whose accretion radius it is in. -/
def takenBy (sinks : List (Sink K)) (p : Ptcl K) : Option Nat :=
  sinks.findIdx? fun s => decide ((p.x.x - s.pos.x) ^ 2 + (p.x.y - s.pos.y) ^ 2 + (p.x.z - s.pos.z) ^ 2 ≤ s.racc ^ 2)

/-- Specification: what sink `i` takes, and what nobody takes. -/
def taken (sinks : List (Sink K)) (i : Nat) (ps : List (Ptcl K)) : List (Ptcl K) := ps.filter fun p => decide (takenBy sinks p = some i)
def kept (sinks : List (Sink K)) (ps : List (Ptcl K)) : List (Ptcl K) := ps.filter fun p => decide (takenBy sinks p = none)

theorem tot_nil {α : Type} (f : α → V3 K) : tot f [] = ⟨0, 0, 0⟩ := rfl

theorem tot_cons {α : Type} (f : α → V3 K) (a : α) (l : List α) : tot f (a :: l) = vadd (f a) (tot f l) := by
  simp [tot, vadd]

theorem tot_append {α : Type} (f : α → V3 K) (l r : List α) : tot f (l ++ r) = vadd (tot f l) (tot f r) := by
  simp [tot, vadd]

theorem tot_perm {α : Type} (f : α → V3 K) {l r : List α} (h : l.Perm r) : tot f l = tot f r := by
  unfold tot
  rw [(h.map _).sum_eq, (h.map _).sum_eq, (h.map _).sum_eq]

theorem tot_map {α β : Type} (f : β → V3 K) (g : α → β) (l : List α) : tot f (l.map g) = tot (fun a => f (g a)) l := by
  unfold tot; simp only [List.map_map]; rfl

theorem tot_smul {α : Type} (c : K) (f : α → V3 K) (l : List α) : tot (fun a => smul c (f a)) l = smul c (tot f l) := by
  unfold tot smul; simp only [List.sum_map_mul_left]

theorem tot_vadd {α : Type} (f g : α → V3 K) (l : List α) : tot (fun a => vadd (f a) (g a)) l = vadd (tot f l) (tot g l) := by
  unfold tot vadd; simp only [List.sum_map_add]

theorem tot_congr {α : Type} {f g : α → V3 K} {l : List α} (h : ∀ a ∈ l, f a = g a) : tot f l = tot g l := by
  induction l with
  | nil => rfl
  | cons a l ih => rw [tot_cons, tot_cons, h a (by simp), ih fun b hb => h b (by simp [hb])]

theorem vsum_go (l : List (V3 K)) : ∀ acc : V3 K, l.foldl vadd acc = vadd acc (tot id l) := by
  induction l with
  | nil => intro acc; simp [tot_nil, vadd]
  | cons a l ih =>
    intro acc
    rw [List.foldl_cons, ih, tot_cons]
    simp [vadd, add_assoc]

theorem vsum_tot {α : Type} (f : α → V3 K) (l : List α) : vsum (l.map f) = tot f l := by
  unfold vsum
  rw [vsum_go, tot_map]
  simp [vadd]

/-! ### Flags -/

theorem flagLoop_eq (r : V3 K) (sinks : List (Sink K)) : ∀ i, flagLoop r i sinks =
    match sinks.findIdx? fun s => decide ((r.x - s.pos.x) ^ 2 + (r.y - s.pos.y) ^ 2 + (r.z - s.pos.z) ^ 2 ≤ s.racc ^ 2) with
    | some k => i + k
    | none => noSink := by
  induction sinks with
  | nil => intro i; rfl
  | cons s ss ih =>
    intro i
    rw [List.findIdx?_cons]
    unfold flagLoop
    have e : dot (vsub r s.pos) (vsub r s.pos) = (r.x - s.pos.x) ^ 2 + (r.y - s.pos.y) ^ 2 + (r.z - s.pos.z) ^ 2 := by
      unfold dot vsub; ring
    have e2 : s.racc * s.racc = s.racc ^ 2 := by ring
    by_cases h : (r.x - s.pos.x) ^ 2 + (r.y - s.pos.y) ^ 2 + (r.z - s.pos.z) ^ 2 ≤ s.racc ^ 2
    · simp only [e, e2, h, decide_true, if_true]; rfl
    · simp only [e, e2, h, decide_false, if_false, ih]
      cases ss.findIdx? _ with
      | none => rfl
      | some k => show i + 1 + k = i + (k + 1); omega

theorem takenBy_lt {sinks : List (Sink K)} {p : Ptcl K} {k : Nat} (h : takenBy sinks p = some k) : k < sinks.length := by
  unfold takenBy at h
  exact (List.findIdx?_eq_some_iff_getElem.1 h).1

theorem flag_some {sinks : List (Sink K)} (hn : sinks.length < 2 ^ 32) (p : Ptcl K) (i : Nat) (hi : i < sinks.length) :
    flagLoop p.x 0 sinks = i ↔ takenBy sinks p = some i := by
  rw [flagLoop_eq]
  have h0 : takenBy sinks p = sinks.findIdx? fun s => decide ((p.x.x - s.pos.x) ^ 2 + (p.x.y - s.pos.y) ^ 2 + (p.x.z - s.pos.z) ^ 2 ≤ s.racc ^ 2) := rfl
  rw [← h0]
  cases h : takenBy sinks p with
  | none =>
    simp only [noSink, reduceCtorEq, iff_false]
    omega
  | some k => simp

theorem flag_none {sinks : List (Sink K)} (hn : sinks.length < 2 ^ 32) (p : Ptcl K) : flagLoop p.x 0 sinks = noSink ↔ takenBy sinks p = none := by
  rw [flagLoop_eq]
  have h0 : takenBy sinks p = sinks.findIdx? fun s => decide ((p.x.x - s.pos.x) ^ 2 + (p.x.y - s.pos.y) ^ 2 + (p.x.z - s.pos.z) ^ 2 ≤ s.racc ^ 2) := rfl
  rw [← h0]
  cases h : takenBy sinks p with
  | none => simp
  | some k =>
    have := takenBy_lt h
    simp only [noSink, reduceCtorEq, iff_false]
    omega

/-! ### Stream compaction selects -/

theorem flaggedIdx_append (fl : List W32) (f : W32) : flaggedIdx (fl ++ [f]) (fl ++ [f]).length = flaggedIdx fl fl.length ++ (if f ≠ 0 then [fl.length] else []) := by
  rw [List.length_append, List.length_singleton, flaggedIdx_succ _ _ f (by simp)]
  congr 1
  unfold flaggedIdx
  apply List.filter_congr
  intro i hi
  rw [List.mem_range] at hi
  rw [List.getElem?_append_left hi]

theorem compact_select {α : Type} (P : α → Bool) (ps : List α) : ∀ rest : List α,
    (flaggedIdx (ps.map fun p => if P p then (1 : W32) else 0) ps.length).mapM (fun k => (ps ++ rest)[k]?) = some (ps.filter P) ∧
    (flaggedIdx (ps.map fun p => if P p then (1 : W32) else 0) ps.length).length = (ps.filter P).length := by
  induction ps using List.reverseRecOn with
  | nil => intro rest; exact ⟨rfl, rfl⟩
  | append_singleton ps p ih =>
    intro rest
    have e := flaggedIdx_append (ps.map fun p => if P p then (1 : W32) else 0) (if P p then (1 : W32) else 0)
    simp only [List.length_append, List.length_map, List.length_singleton] at e
    rw [List.map_append, List.map_cons, List.map_nil, List.length_append, List.length_singleton, e, List.filter_append]
    obtain ⟨i1, i2⟩ := ih ([p] ++ rest)
    constructor
    · rw [List.mapM_append, List.append_assoc, i1]
      by_cases h : P p <;> simp [h]
    · rw [List.length_append, List.length_append, i2]
      by_cases h : P p <;> simp [h]

theorem compact_run {α : Type} (P : α → Bool) (ps : List α) (hl : ps.length < 2 ^ 32) (garbage : Nat → Nat) (order : List Nat) (ho : order.Perm (List.range ps.length)) :
    ∃ ids, streamCompact (ps.map fun p => if P p then (1 : W32) else 0) garbage order = some ids ∧ ids.length = (ps.filter P).length ∧ ids.mapM (fun k => ps[k]?) = some (ps.filter P) := by
  refine ⟨_, C15_stream_compact _ ?_ (by simpa using hl) garbage order (by simpa using ho), ?_, ?_⟩
  · intro f hf
    simp only [List.mem_map] at hf
    obtain ⟨p, _, rfl⟩ := hf
    by_cases h : P p <;> simp [h]
  · rw [List.length_map]; exact (compact_select P ps []).2
  · rw [List.length_map]
    have := (compact_select P ps []).1
    rwa [List.append_nil] at this

/-! ### Sums of a sink -/

/-- Specification: the five sums over a list of particles. -/
def sumOf (pm dt : K) (s : Sink K) (l : List (Ptcl K)) : AccSum K :=
  ⟨pm * (l.length : K), tot (fun p => smul pm p.v) l, tot (fun p => smul pm p.x) l, tot (fun p => smul pm p.a) l, tot (accL pm dt s) l⟩

theorem sumOf_append (pm dt : K) (s : Sink K) (l r : List (Ptcl K)) : sumOf pm dt s (l ++ r) = (sumOf pm dt s l).add (sumOf pm dt s r) := by
  simp [sumOf, AccSum.add, tot_append, mul_add]

theorem sumOf_nil (pm dt : K) (s : Sink K) : sumOf pm dt s [] = AccSum.zero := by
  simp [sumOf, AccSum.zero, tot_nil]

theorem accretePatch_ok (garbage : Nat → Nat) (order : List Nat) (pm dt : K) (s : Sink K) {sinks : List (Sink K)} (hn : sinks.length < 2 ^ 32) (i : Nat) (hi : i < sinks.length)
    (ps : List (Ptcl K)) (hl : ps.length < 2 ^ 32) (ho : order.Perm (List.range ps.length)) :
    accretePatch garbage order pm dt s i (flagTable sinks ps) ps = some (sumOf pm dt s (taken sinks i ps)) := by
  have e : ((flagTable sinks ps).map fun t => if t = i then (1 : W32) else 0) = ps.map fun p => if decide (takenBy sinks p = some i) then (1 : W32) else 0 := by
    unfold flagTable
    rw [List.map_map]
    apply List.map_congr_left
    intro p _
    simp only [Function.comp]
    by_cases h : takenBy sinks p = some i
    · rw [if_pos ((flag_some hn p i hi).2 h), if_pos (by simpa using h)]
    · rw [if_neg (fun h' => h ((flag_some hn p i hi).1 h')), if_neg (by simpa using h)]
  obtain ⟨ids, h1, h2, h3⟩ := compact_run (fun p => decide (takenBy sinks p = some i)) ps hl garbage order ho
  unfold accretePatch
  rw [e, h1]
  dsimp only [Option.bind]
  rw [h3, h2]
  by_cases h : 0 < (ps.filter fun p => decide (takenBy sinks p = some i)).length
  · rw [if_pos h]
    simp only [Option.bind, vsum_tot]
    rfl
  · rw [if_neg h]
    have : (ps.filter fun p => decide (takenBy sinks p = some i)) = [] := List.length_eq_zero_iff.1 (by omega)
    unfold taken
    rw [this, sumOf_nil]

/-- The tables of a patch. -/
def withTable (sinks : List (Sink K)) (ps : List (Ptcl K)) : List Nat × List (Ptcl K) := (flagTable sinks ps, ps)

theorem accreteRank_ok (garbage : Nat → Nat) (order : Nat → List Nat) (pm dt : K) (s : Sink K) {sinks : List (Sink K)} (hn : sinks.length < 2 ^ 32) (i : Nat) (hi : i < sinks.length)
    (r : List (List (Ptcl K))) : ∀ k0, (∀ k ps, r[k]? = some ps → ps.length < 2 ^ 32 ∧ (order (k0 + k)).Perm (List.range ps.length)) →
    accreteRank garbage order pm dt s i k0 (r.map (withTable sinks)) = some (sumOf pm dt s (taken sinks i r.flatten)) := by
  induction r with
  | nil => intro k0 _; simp [accreteRank, taken, sumOf_nil]
  | cons ps r ih =>
    intro k0 h
    rw [List.map_cons]
    unfold accreteRank
    have h0 := h 0 ps rfl
    rw [withTable, accretePatch_ok garbage _ pm dt s hn i hi ps h0.1 (by simpa using h0.2), ih (k0 + 1) fun k q hk => by
      have := h (k + 1) q hk
      rwa [show k0 + (k + 1) = k0 + 1 + k by omega] at this]
    simp only [Option.bind, List.flatten_cons, taken, List.filter_append, sumOf_append]

theorem accreteWorld_ok (garbage : Nat → Nat) (order : Nat → Nat → List Nat) (pm dt : K) (s : Sink K) {sinks : List (Sink K)} (hn : sinks.length < 2 ^ 32) (i : Nat) (hi : i < sinks.length)
    (w : List (List (List (Ptcl K)))) : ∀ r0, (∀ (r : Nat) rk (k : Nat) ps, w[r]? = some rk → rk[k]? = some ps → ps.length < 2 ^ 32 ∧ (order (r0 + r) k).Perm (List.range ps.length)) →
    accreteWorld garbage order pm dt s i r0 (w.map fun r => r.map (withTable sinks)) = some (sumOf pm dt s (taken sinks i w.flatten.flatten)) := by
  induction w with
  | nil => intro r0 _; simp [accreteWorld, taken, sumOf_nil]
  | cons rk w ih =>
    intro r0 h
    rw [List.map_cons]
    unfold accreteWorld
    rw [accreteRank_ok garbage _ pm dt s hn i hi rk 0 fun k ps hk => by
      have := h 0 rk k ps rfl hk
      simpa using this, ih (r0 + 1) fun r rk k ps hr hk => by
      have := h (r + 1) rk k ps hr hk
      rwa [show r0 + (r + 1) = r0 + 1 + r by omega] at this]
    simp only [Option.bind, List.flatten_cons, taken, List.flatten_append, List.filter_append, sumOf_append]

theorem accreteSinks_ok (garbage : Nat → Nat) (order : Nat → Nat → Nat → List Nat) (pm dt : K) {sinks : List (Sink K)} (hn : sinks.length < 2 ^ 32)
    (w : List (List (List (Ptcl K)))) (h : ∀ i, i < sinks.length → ∀ (r : Nat) rk (k : Nat) ps, w[r]? = some rk → rk[k]? = some ps → ps.length < 2 ^ 32 ∧ (order i r k).Perm (List.range ps.length))
    (acc : Nat → Sink K → Sink K) : ∀ (ss : List (Sink K)) (i : Nat), i + ss.length = sinks.length →
    (∀ k s, ss[k]? = some s → s.accrete (sumOf pm dt s (taken sinks (i + k) w.flatten.flatten)) = some (acc (i + k) s)) →
    accreteSinks garbage order pm dt (w.map fun r => r.map (withTable sinks)) i ss = some (ss.zipIdx i |>.map fun q => acc q.2 q.1) := by
  intro ss
  induction ss with
  | nil => intro i _ _; rfl
  | cons s ss ih =>
    intro i hi ha
    rw [List.length_cons] at hi
    unfold accreteSinks
    have h0 := ha 0 s rfl
    rw [accreteWorld_ok garbage _ pm dt s hn i (by omega) w 0 fun r rk k ps hr hk => by
      have := h i (by omega) r rk k ps hr hk
      simpa using this]
    simp only [Option.bind]
    simp only [Nat.add_zero] at h0
    rw [h0, ih (i + 1) (by omega) fun k t hk => by
      have := ha (k + 1) t hk
      rwa [show i + (k + 1) = i + 1 + k by omega] at this]
    simp [List.zipIdx_cons]

theorem evictPatch_ok (garbage : Nat → Nat) (order : List Nat) {sinks : List (Sink K)} (hn : sinks.length < 2 ^ 32)
    (ps : List (Ptcl K)) (hl : ps.length < 2 ^ 32) (ho : order.Perm (List.range ps.length)) :
    evictPatch garbage order (flagTable sinks ps) ps = some (kept sinks ps) := by
  have e : ((flagTable sinks ps).map fun t => if t = noSink then (1 : W32) else 0) = ps.map fun p => if decide (takenBy sinks p = none) then (1 : W32) else 0 := by
    unfold flagTable
    rw [List.map_map]
    apply List.map_congr_left
    intro p _
    simp only [Function.comp]
    by_cases h : takenBy sinks p = none
    · rw [if_pos ((flag_none hn p).2 h), if_pos (by simpa using h)]
    · rw [if_neg (fun h' => h ((flag_none hn p).1 h')), if_neg (by simpa using h)]
  obtain ⟨ids, h1, h2, h3⟩ := compact_run (fun p => decide (takenBy sinks p = none)) ps hl garbage order ho
  unfold evictPatch
  rw [e, h1]
  simp only [Option.bind]
  rw [h3]
  by_cases h : ((flagTable sinks ps).any fun t => decide (t ≠ noSink)) = true
  · rw [if_pos h]; rfl
  · rw [if_neg h]
    congr 1
    symm
    unfold kept
    rw [List.filter_eq_self]
    intro p hp
    rw [decide_eq_true_eq, ← flag_none hn]
    by_contra hc
    apply h
    rw [List.any_eq_true]
    exact ⟨_, List.mem_map.2 ⟨p, hp, rfl⟩, by simpa using hc⟩

theorem evictRank_ok (garbage : Nat → Nat) (order : Nat → List Nat) {sinks : List (Sink K)} (hn : sinks.length < 2 ^ 32)
    (r : List (List (Ptcl K))) : ∀ k0, (∀ k ps, r[k]? = some ps → ps.length < 2 ^ 32 ∧ (order (k0 + k)).Perm (List.range ps.length)) →
    evictRank garbage order k0 (r.map (withTable sinks)) = some (r.map (kept sinks)) := by
  induction r with
  | nil => intro k0 _; rfl
  | cons ps r ih =>
    intro k0 h
    rw [List.map_cons]
    unfold evictRank
    have h0 := h 0 ps rfl
    rw [withTable, evictPatch_ok garbage _ hn ps h0.1 (by simpa using h0.2), ih (k0 + 1) fun k q hk => by
      have := h (k + 1) q hk
      rwa [show k0 + (k + 1) = k0 + 1 + k by omega] at this]
    rfl

theorem evictWorld_ok (garbage : Nat → Nat) (order : Nat → Nat → List Nat) {sinks : List (Sink K)} (hn : sinks.length < 2 ^ 32)
    (w : List (List (List (Ptcl K)))) : ∀ r0, (∀ (r : Nat) rk (k : Nat) ps, w[r]? = some rk → rk[k]? = some ps → ps.length < 2 ^ 32 ∧ (order (r0 + r) k).Perm (List.range ps.length)) →
    evictWorld garbage order r0 (w.map fun r => r.map (withTable sinks)) = some (w.map fun r => r.map (kept sinks)) := by
  induction w with
  | nil => intro r0 _; rfl
  | cons rk w ih =>
    intro r0 h
    rw [List.map_cons]
    unfold evictWorld
    rw [evictRank_ok garbage _ hn rk 0 fun k ps hk => by
      have := h 0 rk k ps rfl hk
      simpa using this, ih (r0 + 1) fun r rk k ps hr hk => by
      have := h (r + 1) rk k ps hr hk
      rwa [show r0 + (r + 1) = r0 + 1 + r by omega] at this]
    rfl

/-! ### One sink -/

/-- Specification: what accretion must do with a sink: it keeps mass, momentum, mass times position, mass times acceleration; its angular momentum (spin and orbit) grows by
that of the particles, and by `dt / 2` times their moment of acceleration about the old sink. -/
structure Accreted (pm dt : K) (s : Sink K) (l : List (Ptcl K)) (s' : Sink K) : Prop where
  mass : s'.mass = s.mass + pm * (l.length : K)
  mom : smul s'.mass s'.vel = vadd (smul s.mass s.vel) (tot (fun p => smul pm p.v) l)
  com : smul s'.mass s'.pos = vadd (smul s.mass s.pos) (tot (fun p => smul pm p.x) l)
  acc : smul s'.mass s'.accSph = vadd (smul s.mass s.accSph) (tot (fun p => smul pm p.a) l)
  ang : vadd s'.ang (smul s'.mass (cross s'.pos s'.vel)) =
    vadd (vadd s.ang (smul s.mass (cross s.pos s.vel)))
      (vadd (tot (fun p => smul pm (cross p.x p.v)) l) (smul (dt / 2) (tot (fun p => smul pm (cross (vsub p.x s.pos) p.a)) l)))
  ext : s'.accExt = s.accExt
  racc : s'.racc = s.racc

theorem accL_sum (pm dt : K) (s : Sink K) (l : List (Ptcl K)) : tot (accL pm dt s) l =
    vadd (vadd (vsub (vsub (tot (fun p => smul pm (cross p.x p.v)) l) (cross (tot (fun p => smul pm p.x) l) s.vel)) (cross s.pos (tot (fun p => smul pm p.v) l)))
      (smul (pm * (l.length : K)) (cross s.pos s.vel))) (smul (dt / 2) (tot (fun p => smul pm (cross (vsub p.x s.pos) p.a)) l)) := by
  induction l with
  | nil => simp [tot_nil, vadd, vsub, smul, cross]
  | cons p l ih =>
    simp only [tot_cons, ih, List.length_cons, Nat.cast_add, Nat.cast_one]
    apply v3_ext <;> simp only [vadd, vsub, smul, cross, accL] <;> ring

theorem accrete_ok (pm dt : K) (hp : 0 < pm) (s : Sink K) (hm : 0 ≤ s.mass) (l : List (Ptcl K)) :
    ∃ s', s.accrete (sumOf pm dt s l) = some s' ∧ Accreted pm dt s l s' := by
  unfold Sink.accrete
  by_cases h : l = []
  · subst h
    refine ⟨s, ?_, ?_⟩
    · rw [if_pos (by simp [sumOf])]
    · constructor <;> simp [tot_nil, vadd, smul]
  · have hlen : (0 : K) < (l.length : K) := by exact_mod_cast List.length_pos_of_ne_nil h
    have hpos : 0 < pm * (l.length : K) := mul_pos hp hlen
    have hM : 0 < s.mass + pm * (l.length : K) := by linarith
    have hne : s.mass + pm * (l.length : K) ≠ 0 := ne_of_gt hM
    rw [if_neg (by simpa [sumOf] using not_le.2 hpos)]
    dsimp only [sumOf]
    rw [if_neg hne, accL_sum]
    refine ⟨_, rfl, ?_⟩
    constructor
    all_goals dsimp only
    all_goals generalize tot (fun p : Ptcl K => smul pm p.v) l = P
    all_goals generalize tot (fun p : Ptcl K => smul pm p.x) l = X
    all_goals generalize tot (fun p : Ptcl K => smul pm p.a) l = A
    all_goals generalize tot (fun p : Ptcl K => smul pm (cross p.x p.v)) l = L
    all_goals generalize tot (fun p : Ptcl K => smul pm (cross (vsub p.x s.pos) p.a)) l = T
    all_goals generalize pm * (l.length : K) = q at hpos hM hne ⊢
    · apply v3_ext <;> simp only [vadd, smul] <;> field_simp <;> ring
    · apply v3_ext <;> simp only [vadd, smul] <;> field_simp <;> ring
    · apply v3_ext <;> simp only [vadd, smul] <;> field_simp <;> ring
    · apply v3_ext <;> simp only [vadd, vsub, smul, cross] <;> field_simp <;> ring

/-! ### The partition of the particles -/

theorem sum_one (c : K) (n : Nat) : ∀ k, k < n → ((List.range n).map fun i => if k = i then c else 0).sum = c := by
  induction n with
  | zero => intro k hk; omega
  | succ n ih =>
    intro k hk
    rw [List.range_succ, List.map_append, List.sum_append]
    by_cases h : k = n
    · subst h
      have : ((List.range k).map fun i => if k = i then c else 0) = (List.range k).map fun _ => 0 := by
        apply List.map_congr_left
        intro i hi
        rw [List.mem_range] at hi
        rw [if_neg (by omega)]
      rw [this]; simp
    · rw [ih k (by omega)]; simp [h]

theorem part_sum (sinks : List (Sink K)) (g : Ptcl K → K) (ps : List (Ptcl K)) :
    (ps.map g).sum = ((kept sinks ps).map g).sum + ((List.range sinks.length).map fun i => ((taken sinks i ps).map g).sum).sum := by
  induction ps with
  | nil => simp [kept, taken]
  | cons p ps ih =>
    have hi : ∀ i, ((taken sinks i (p :: ps)).map g).sum = (if takenBy sinks p = some i then g p else 0) + ((taken sinks i ps).map g).sum := by
      intro i
      unfold taken
      rw [List.filter_cons]
      by_cases h : takenBy sinks p = some i <;> simp [h]
    simp only [hi, List.map_cons, List.sum_cons, List.sum_map_add, ih]
    cases h : takenBy sinks p with
    | none => simp [kept, List.filter_cons, h]; ring
    | some k =>
      have hk := takenBy_lt h
      have e : ((List.range sinks.length).map fun i => if some k = some i then g p else 0).sum = g p := by
        simp only [Option.some.injEq]
        exact sum_one _ _ _ hk
      rw [e]
      simp [kept, List.filter_cons, h]
      ring

theorem part_tot (sinks : List (Sink K)) (f : Ptcl K → V3 K) (ps : List (Ptcl K)) :
    tot f ps = vadd (tot f (kept sinks ps)) (tot (fun q => tot f (taken sinks q.2 ps)) sinks.zipIdx) := by
  have e : ∀ g : Nat → K, (sinks.zipIdx.map fun q => g q.2).sum = ((List.range sinks.length).map g).sum := by
    intro g
    rw [show (fun q : Sink K × Nat => g q.2) = g ∘ Prod.snd from rfl, ← List.map_map, List.zipIdx_map_snd, List.range_eq_range']
  apply v3_ext <;> simp only [tot, vadd] <;> rw [part_sum sinks, e (fun i => ((taken sinks i ps).map _).sum)]

theorem sinks_tot (h : Sink K → V3 K) (acc : Nat → Sink K → Sink K) (T : Sink K × Nat → V3 K) (ss : List (Sink K)) : ∀ i,
    (∀ k s, ss[k]? = some s → h (acc (i + k) s) = vadd (h s) (T (s, i + k))) →
    tot h ((ss.zipIdx i).map fun q => acc q.2 q.1) = vadd (tot h ss) (tot T (ss.zipIdx i)) := by
  induction ss with
  | nil => intro i _; simp [tot_nil, vadd]
  | cons s ss ih =>
    intro i hh
    have h0 := hh 0 s rfl
    rw [List.zipIdx_cons, List.map_cons, tot_cons, tot_cons, tot_cons, ih (i + 1) fun k t hk => by
      have := hh (k + 1) t hk
      rwa [show i + (k + 1) = i + 1 + k by omega] at this]
    simp only [Nat.add_zero] at h0
    rw [h0]
    apply v3_ext <;> simp only [vadd] <;> ring

/-! ### The accretion -/

/-- Specification: all particles. -/
def particles (w : List (List (List (Ptcl K)))) : List (Ptcl K) := w.flatten.flatten

/-- Specification: totals of gas and sinks: mass, momentum, mass times position, mass times the acceleration of the gas forces, angular momentum (orbits and spins). -/
def totalMass (pm : K) (w : List (List (List (Ptcl K)))) (sinks : List (Sink K)) : K := pm * ((particles w).length : K) + (sinks.map fun s => s.mass).sum
def momentum (pm : K) (w : List (List (List (Ptcl K)))) (sinks : List (Sink K)) : V3 K := vadd (tot (fun p => smul pm p.v) (particles w)) (tot (fun s => smul s.mass s.vel) sinks)
def massCentre (pm : K) (w : List (List (List (Ptcl K)))) (sinks : List (Sink K)) : V3 K := vadd (tot (fun p => smul pm p.x) (particles w)) (tot (fun s => smul s.mass s.pos) sinks)
def totalForce (pm : K) (w : List (List (List (Ptcl K)))) (sinks : List (Sink K)) : V3 K := vadd (tot (fun p => smul pm p.a) (particles w)) (tot (fun s => smul s.mass s.accSph) sinks)
def angularMomentum (pm : K) (w : List (List (List (Ptcl K)))) (sinks : List (Sink K)) : V3 K :=
  vadd (tot (fun p => smul pm (cross p.x p.v)) (particles w)) (tot (fun s => vadd s.ang (smul s.mass (cross s.pos s.vel))) sinks)

/-- Specification: the moment, about the sink that takes them, of the accelerations of the particles taken. -/
def takenMoment (pm : K) (w : List (List (List (Ptcl K)))) (sinks : List (Sink K)) : V3 K :=
  tot (fun q => tot (fun p => smul pm (cross (vsub p.x q.1.pos) p.a)) (taken sinks q.2 (particles w))) sinks.zipIdx

/-- Patch sizes are `u32`; every kernel runs its items in some order. -/
structure Sched (w : List (List (List (Ptcl K)))) (n : Nat) (order : Nat → Nat → Nat → List Nat) (orderE : Nat → Nat → List Nat) : Prop where
  size : ∀ rk ∈ w, ∀ ps ∈ rk, ps.length < 2 ^ 32
  ord : ∀ (i r k : Nat) rk ps, i < n → w[r]? = some rk → rk[k]? = some ps → (order i r k).Perm (List.range ps.length)
  ordE : ∀ (r k : Nat) rk ps, w[r]? = some rk → rk[k]? = some ps → (orderE r k).Perm (List.range ps.length)

theorem kept_world (sinks : List (Sink K)) (w : List (List (List (Ptcl K)))) : particles (w.map fun r => r.map (kept sinks)) = kept sinks (particles w) := by
  unfold particles kept
  simp only [List.filter_flatten, List.map_map, List.map_flatten]

/-- Result of the accretion. -/
structure AccretionOk (pm dt : K) (w : List (List (List (Ptcl K)))) (sinks : List (Sink K)) (w' : List (List (List (Ptcl K)))) (sinks' : List (Sink K)) : Prop where
  gas : w' = w.map fun r => r.map (kept sinks)
  count : sinks'.length = sinks.length
  each : ∀ i s s', sinks[i]? = some s → sinks'[i]? = some s' → Accreted pm dt s (taken sinks i (particles w)) s'
  mass : totalMass pm w' sinks' = totalMass pm w sinks
  mom : momentum pm w' sinks' = momentum pm w sinks
  com : massCentre pm w' sinks' = massCentre pm w sinks
  force : totalForce pm w' sinks' = totalForce pm w sinks
  ang : angularMomentum pm w' sinks' = vadd (angularMomentum pm w sinks) (smul (dt / 2) (takenMoment pm w sinks))

theorem accretion_ok (garbage : Nat → Nat) (order : Nat → Nat → Nat → List Nat) (orderE : Nat → Nat → List Nat) (pm dt : K) (hp : 0 < pm) (w : List (List (List (Ptcl K))))
    (sinks : List (Sink K)) (hn : sinks.length < 2 ^ 32) (hm : ∀ s ∈ sinks, 0 ≤ s.mass) (S : Sched w sinks.length order orderE) :
    ∃ w' sinks', sinkAccretion garbage order orderE pm dt w sinks = some (w', sinks') ∧ AccretionOk pm dt w sinks w' sinks' := by
  have hex : ∀ (i : Nat) (s : Sink K), ∃ s', 0 ≤ s.mass → (s.accrete (sumOf pm dt s (taken sinks i (particles w))) = some s' ∧ Accreted pm dt s (taken sinks i (particles w)) s') := by
    intro i s
    by_cases h : 0 ≤ s.mass
    · obtain ⟨s', h1, h2⟩ := accrete_ok pm dt hp s h (taken sinks i (particles w))
      exact ⟨s', fun _ => ⟨h1, h2⟩⟩
    · exact ⟨s, fun h' => absurd h' h⟩
  choose acc hacc using hex
  have hsz : ∀ (r : Nat) rk (k : Nat) ps, w[r]? = some rk → rk[k]? = some ps → ps.length < 2 ^ 32 := fun r rk k ps h1 h2 =>
    S.size rk (List.mem_of_getElem? h1) ps (List.mem_of_getElem? h2)
  have hs : ∀ k (s : Sink K), sinks[k]? = some s → 0 ≤ s.mass := fun k s h => hm s (List.mem_of_getElem? h)
  have h1 := accreteSinks_ok garbage order pm dt hn w (fun i hi r rk k ps hr hk => ⟨hsz r rk k ps hr hk, S.ord i r k rk ps hi hr hk⟩) acc sinks 0 (by simp) fun k s hk => by
    rw [Nat.zero_add]; exact (hacc k s (hs k s hk)).1
  have h2 := evictWorld_ok garbage orderE hn w 0 fun r rk k ps hr hk => ⟨hsz r rk k ps hr hk, by rw [Nat.zero_add]; exact S.ordE r k rk ps hr hk⟩
  refine ⟨_, sinks.zipIdx.map fun q => acc q.2 q.1, ?_, rfl, ?_, ?_, ?_, ?_, ?_, ?_, ?_⟩
  · unfold sinkAccretion
    dsimp only
    change (accreteSinks garbage order pm dt (w.map fun r => r.map (withTable sinks)) 0 sinks).bind (fun ss =>
      (evictWorld garbage orderE 0 (w.map fun r => r.map (withTable sinks))).bind fun w' => some (w', ss)) = _
    rw [h1, h2]
    rfl
  · simp
  · intro i s s' hi hi'
    rw [List.getElem?_map, List.getElem?_zipIdx, hi] at hi'
    simp at hi'
    subst hi'
    exact (hacc i s (hs i s hi)).2
  · have e := sinks_tot (fun s => (⟨s.mass, 0, 0⟩ : V3 K)) acc (fun q => tot (fun _ => ⟨pm, 0, 0⟩) (taken sinks q.2 (particles w))) sinks 0 fun k s hk => by
      rw [Nat.zero_add, (hacc k s (hs k s hk)).2.mass]
      simp [tot, vadd, mul_comm]
    have e2 := part_tot sinks (fun _ => (⟨pm, 0, 0⟩ : V3 K)) (particles w)
    have e' := congrArg V3.x e
    have e2' := congrArg V3.x e2
    unfold totalMass
    rw [kept_world]
    simp only [vadd, tot] at e' e2'
    simp only [List.map_const', List.sum_replicate, nsmul_eq_mul] at e' e2'
    rw [mul_comm pm, mul_comm pm, e2', e']
    ring
  · unfold momentum
    rw [kept_world, part_tot sinks _ (particles w), sinks_tot _ acc (fun q => tot (fun p => smul pm p.v) (taken sinks q.2 (particles w))) sinks 0 fun k s hk => by
      rw [Nat.zero_add]; exact (hacc k s (hs k s hk)).2.mom]
    apply v3_ext <;> simp only [vadd] <;> ring
  · unfold massCentre
    rw [kept_world, part_tot sinks _ (particles w), sinks_tot _ acc (fun q => tot (fun p => smul pm p.x) (taken sinks q.2 (particles w))) sinks 0 fun k s hk => by
      rw [Nat.zero_add]; exact (hacc k s (hs k s hk)).2.com]
    apply v3_ext <;> simp only [vadd] <;> ring
  · unfold totalForce
    rw [kept_world, part_tot sinks _ (particles w), sinks_tot _ acc (fun q => tot (fun p => smul pm p.a) (taken sinks q.2 (particles w))) sinks 0 fun k s hk => by
      rw [Nat.zero_add]; exact (hacc k s (hs k s hk)).2.acc]
    apply v3_ext <;> simp only [vadd] <;> ring
  · unfold angularMomentum takenMoment
    rw [kept_world, part_tot sinks _ (particles w), sinks_tot _ acc (fun q => vadd (tot (fun p => smul pm (cross p.x p.v)) (taken sinks q.2 (particles w)))
      (smul (dt / 2) (tot (fun p => smul pm (cross (vsub p.x q.1.pos) p.a)) (taken sinks q.2 (particles w))))) sinks 0 fun k s hk => by
      rw [Nat.zero_add]; exact (hacc k s (hs k s hk)).2.ang, tot_vadd, tot_vadd,
      tot_smul (dt / 2) (fun q : Sink K × Nat => tot (fun p => smul pm (cross (vsub p.x q.1.pos) p.a)) (taken sinks q.2 (particles w))) sinks.zipIdx]
    apply v3_ext <;> simp only [vadd] <;> ring

end
end Shamrock.Sph
