import Verif.Proof.SphSink
import Mathlib.Tactic.LinearCombination
import Mathlib.Tactic.Positivity
/-! Sink particles: forces and the time step. -/
namespace Shamrock.Sph

section
variable {K : Type} [Field K] [LinearOrder K] [IsStrictOrderedRing K]

/-- Specification: the attraction of a sink, softened to zero inside its accretion radius; over the mass of the sink. -/
def pull (sqrt : K → K) (G : K) (s : Sink K) (x : V3 K) : V3 K :=
  let d := sqrt (dot (vsub x s.pos) (vsub x s.pos))
  if d < s.racc then ⟨0, 0, 0⟩ else smul (G / (d * d * d)) (vsub x s.pos)

theorem sinkForce_ok (sqrt : K → K) (G : K) (s : Sink K) (hr : 0 < s.racc) (x : V3 K) : sinkForce sqrt G s x = some (pull sqrt G s x) := by
  unfold sinkForce pull
  dsimp only
  by_cases h : sqrt (dot (vsub x s.pos) (vsub x s.pos)) < s.racc
  · rw [if_pos h, if_pos h]
  · have hd : 0 < sqrt (dot (vsub x s.pos) (vsub x s.pos)) := lt_of_lt_of_le hr (not_lt.1 h)
    rw [if_neg h, if_neg h, if_neg (by positivity)]
    congr 1
    apply v3_ext <;> simp only [smul] <;> ring

theorem mapM_total {α β : Type} (f : α → Option β) (g : α → β) (l : List α) (h : ∀ a ∈ l, f a = some (g a)) : l.mapM f = some (l.map g) := by
  induction l with
  | nil => rfl
  | cons a l ih => rw [List.mapM_cons, h a (by simp), ih fun b hb => h b (by simp [hb])]; rfl

/-- The update of a particle by one sink. -/
def pulled (sqrt : K → K) (G : K) (s : Sink K) (p : Ptcl K) : Ptcl K := { p with ext := vadd p.ext (smul (-s.mass) (pull sqrt G s p.x)) }

theorem sinkPatch_ok (sqrt : K → K) (G pm : K) (s : Sink K) (hr : 0 < s.racc) (ps : List (Ptcl K)) :
    sinkPatch sqrt G pm s ps = some (ps.map (pulled sqrt G s), tot (fun p => smul pm (pull sqrt G s p.x)) ps) := by
  unfold sinkPatch
  rw [mapM_total _ (fun p => (pulled sqrt G s p, smul pm (pull sqrt G s p.x))) ps fun p _ => by rw [sinkForce_ok sqrt G s hr]; rfl]
  simp only [Option.bind, List.map_map]
  rw [show ((fun q : Ptcl K × V3 K => q.2) ∘ fun p => (pulled sqrt G s p, smul pm (pull sqrt G s p.x))) = fun p => smul pm (pull sqrt G s p.x) from rfl, vsum_tot]
  rfl

theorem sinkRank_ok (sqrt : K → K) (G pm : K) (s : Sink K) (hr : 0 < s.racc) (r : List (List (Ptcl K))) :
    sinkRank sqrt G pm s r = some (r.map fun ps => ps.map (pulled sqrt G s), tot (fun p => smul pm (pull sqrt G s p.x)) r.flatten) := by
  induction r with
  | nil => rfl
  | cons ps r ih =>
    unfold sinkRank
    rw [sinkPatch_ok sqrt G pm s hr, ih]
    simp [tot_append]

/-- The update of a particle by all sinks. -/
def pulledAll (sqrt : K → K) (G : K) (sinks : List (Sink K)) (p : Ptcl K) : Ptcl K := { p with ext := vadd p.ext (tot (fun s => smul (-s.mass) (pull sqrt G s p.x)) sinks) }

theorem pulledAll_cons (sqrt : K → K) (G : K) (s : Sink K) (ss : List (Sink K)) (p : Ptcl K) : pulledAll sqrt G ss (pulled sqrt G s p) = pulledAll sqrt G (s :: ss) p := by
  unfold pulledAll pulled
  rw [tot_cons]
  dsimp only
  congr 1
  apply v3_ext <;> simp only [vadd] <;> ring

theorem sinkLoop_ok (sqrt : K → K) (G pm : K) (sinks : List (Sink K)) (hr : ∀ s ∈ sinks, 0 < s.racc) : ∀ (r : List (List (Ptcl K))),
    sinkLoop sqrt G pm sinks r = some (r.map fun ps => ps.map (pulledAll sqrt G sinks), sinks.map fun s => tot (fun p => smul pm (pull sqrt G s p.x)) r.flatten) := by
  induction sinks with
  | nil =>
    intro r
    have : (fun ps : List (Ptcl K) => ps.map (pulledAll sqrt G [])) = id := by
      funext ps
      have : (pulledAll sqrt G ([] : List (Sink K))) = id := by
        funext p; unfold pulledAll; rw [tot_nil]; obtain ⟨x, v, a, e⟩ := p; simp [vadd]
      rw [this, List.map_id]; rfl
    rw [this]; simp [sinkLoop]
  | cons s ss ih =>
    intro r
    unfold sinkLoop
    rw [sinkRank_ok sqrt G pm s (hr s (by simp))]
    simp only [Option.bind]
    rw [ih fun t ht => hr t (by simp [ht])]
    have e : ∀ t : Sink K, tot (fun p : Ptcl K => smul pm (pull sqrt G t p.x)) (r.map fun ps => ps.map (pulled sqrt G s)).flatten = tot (fun p => smul pm (pull sqrt G t p.x)) r.flatten := by
      intro t
      rw [← List.map_flatten, tot_map]
      rfl
    simp only [e, List.map_map, List.map_cons]
    congr 2
    apply List.map_congr_left
    intro ps _
    simp only [Function.comp, List.map_map]
    apply List.map_congr_left
    intro p _
    exact pulledAll_cons sqrt G s ss p

theorem gather_get (rows : List (List (V3 K))) (n k : Nat) (hk : k < n) (h : ∀ r ∈ rows, r.length = n) : ∀ (i : Nat) row, rows[i]? = some row → rows.flatten[i * n + k]? = row[k]? := by
  induction rows with
  | nil => intro i row hi; simp at hi
  | cons r rows ih =>
    intro i row hi
    have hl : r.length = n := h r (by simp)
    rw [List.flatten_cons]
    cases i with
    | zero =>
      simp at hi
      subst hi
      rw [Nat.zero_mul, Nat.zero_add, List.getElem?_append_left (by omega)]
    | succ i =>
      rw [List.getElem?_cons_succ] at hi
      rw [List.getElem?_append_right (by rw [hl, Nat.succ_mul]; omega), hl, ← ih (fun r hr => h r (by simp [hr])) i row hi]
      congr 1
      rw [Nat.succ_mul]; omega

theorem sinkGather_ok (rows : List (List (V3 K))) (n k : Nat) (hk : k < n) (h : ∀ r ∈ rows, r.length = n) (f : Nat → V3 K) (l : List Nat)
    (hf : ∀ i ∈ l, ∃ row, rows[i]? = some row ∧ row[k]? = some (f i)) : sinkGather rows.flatten n k l = some (tot f l) := by
  induction l with
  | nil => rfl
  | cons i l ih =>
    obtain ⟨row, h1, h2⟩ := hf i (by simp)
    unfold sinkGather
    rw [gather_get rows n k hk h i row h1, h2, ih fun j hj => hf j (by simp [hj])]
    simp only [Option.bind, tot_cons]

theorem tot_flatten {α : Type} (f : α → V3 K) (l : List (List α)) : tot f l.flatten = tot (fun r => tot f r) l := by
  induction l with
  | nil => rfl
  | cons a l ih => rw [List.flatten_cons, tot_append, tot_cons, ih]

theorem tot_range {α : Type} (f : α → V3 K) (l : List α) (g : Nat → V3 K) (h : ∀ i a, l[i]? = some a → g i = f a) : tot g (List.range l.length) = tot f l := by
  induction l using List.reverseRecOn with
  | nil => rfl
  | append_singleton l a ih =>
    rw [List.length_append, List.length_singleton, List.range_succ, tot_append, tot_append, ih fun i b hb => h i b (by
      rw [List.getElem?_append_left (List.getElem?_eq_some_iff.1 hb).1]; exact hb)]
    rw [tot_cons, tot_nil, tot_cons, tot_nil, h l.length a (by simp)]

/-- Specification: the particles and sinks with the forces they have on each other. -/
def withExt (sqrt : K → K) (G : K) (sinks : List (Sink K)) (p : Ptcl K) : Ptcl K := { p with ext := tot (fun s => smul (-s.mass) (pull sqrt G s p.x)) sinks }
def withAcc (sqrt : K → K) (G pm : K) (ps : List (Ptcl K)) (s : Sink K) : Sink K := { s with accSph := tot (fun p => smul pm (pull sqrt G s p.x)) ps }

theorem sphSinkForces_ok (sqrt : K → K) (G pm : K) (w : List (List (List (Ptcl K)))) (sinks : List (Sink K)) (hr : ∀ s ∈ sinks, 0 < s.racc) :
    sphSinkForces sqrt G pm w sinks = some (w.map fun r => r.map fun ps => ps.map (withExt sqrt G sinks), sinks.map (withAcc sqrt G pm (particles w))) := by
  unfold sphSinkForces
  dsimp only
  by_cases h0 : sinks.length = 0
  · rw [if_pos h0]
    have : sinks = [] := List.length_eq_zero_iff.1 h0
    subst this
    rfl
  · rw [if_neg h0, mapM_total _ _ _ fun r _ => sinkLoop_ok sqrt G pm sinks hr r]
    rw [Option.bind_some]
    simp only [List.map_map]
    have hk : ∀ k ∈ List.range sinks.length, ((sinkGather ((w.map ((fun q : List (List (Ptcl K)) × List (V3 K) => q.2) ∘ (fun r => (r.map fun ps => ps.map (pulledAll sqrt G sinks),
        sinks.map fun s => tot (fun p => smul pm (pull sqrt G s p.x)) r.flatten)) ∘ fun r => r.map fun ps => ps.map fun p => { p with ext := ⟨0, 0, 0⟩ }))).flatten sinks.length k (List.range w.length)).bind fun a =>
        (sinks[k]?).map fun s => { s with accSph := a }) = some ((sinks.map (withAcc sqrt G pm (particles w)))[k]?.getD ⟨⟨0, 0, 0⟩, ⟨0, 0, 0⟩, ⟨0, 0, 0⟩, ⟨0, 0, 0⟩, 0, ⟨0, 0, 0⟩, 0⟩) := by
      intro k hk
      rw [List.mem_range] at hk
      have hs : sinks[k]? = some sinks[k] := List.getElem?_eq_getElem hk
      rw [sinkGather_ok _ sinks.length k hk (by
        intro r hr'
        rw [List.mem_map] at hr'
        obtain ⟨q, _, rfl⟩ := hr'
        simp) (fun i => tot (fun p => smul pm (pull sqrt G sinks[k] p.x)) ((w[i]?.getD []).flatten)) _ (by
        intro i hi
        rw [List.mem_range] at hi
        refine ⟨_, by rw [List.getElem?_map, List.getElem?_eq_getElem hi]; rfl, ?_⟩
        simp only [Function.comp, List.getElem?_map, hs, Option.map_some, List.getElem?_eq_getElem hi, Option.getD_some]
        congr 1
        rw [← List.map_flatten, tot_map])]
      simp only [Option.bind, hs, Option.map_some, List.getElem?_map, Option.getD_some, Option.some.injEq]
      unfold withAcc particles
      rw [tot_flatten, tot_flatten]
      congr 1
      rw [tot_range (fun r : List (List (Ptcl K)) => tot (fun p => smul pm (pull sqrt G sinks[k] p.x)) r.flatten) w _ fun i a hi => by rw [hi]; rfl]
      simp only [tot_flatten]
    rw [mapM_total _ _ _ hk, Option.bind_some]
    simp only [Option.some.injEq, Prod.mk.injEq]
    constructor
    · apply List.map_congr_left
      intro r _
      simp only [Function.comp, List.map_map]
      apply List.map_congr_left
      intro ps _
      simp only [Function.comp, List.map_map]
      apply List.map_congr_left
      intro p _
      simp [pulledAll, withExt, vadd]
    · apply List.ext_getElem (by simp)
      intro i h1 h2
      simp only [List.length_map, List.length_range] at h1 h2
      simp [List.getElem_map, List.getElem_range, h2]

/-! ### Third law -/

theorem tot_comm {α β : Type} (F : α → β → V3 K) (l : List α) (r : List β) : tot (fun a => tot (F a) r) l = tot (fun b => tot (fun a => F a b) l) r := by
  induction l with
  | nil =>
    rw [tot_nil]
    induction r with
    | nil => rfl
    | cons b r ih => rw [tot_cons, ← ih, tot_nil]; simp [vadd]
  | cons a l ih =>
    rw [tot_cons, ih, ← tot_vadd]
    apply tot_congr
    intro b _
    rw [tot_cons]

/-- Sums of pairs that cancel. -/
theorem tot_cancel {α β : Type} (F : α → β → V3 K) (G : β → α → V3 K) (h : ∀ a b, vadd (F a b) (G b a) = ⟨0, 0, 0⟩) (l : List α) (r : List β) :
    vadd (tot (fun a => tot (F a) r) l) (tot (fun b => tot (G b) l) r) = ⟨0, 0, 0⟩ := by
  rw [tot_comm, ← tot_vadd]
  have : ∀ b, vadd (tot (fun a => F a b) l) (tot (G b) l) = (⟨0, 0, 0⟩ : V3 K) := by
    intro b
    rw [← tot_vadd]
    have e : tot (fun a => vadd (F a b) (G b a)) l = tot (fun _ => (⟨0, 0, 0⟩ : V3 K)) l := tot_congr fun a _ => h a b
    rw [e]
    simp [tot]
  rw [tot_congr (g := fun _ => (⟨0, 0, 0⟩ : V3 K)) fun b _ => this b]
  simp [tot]

theorem tot_anti {α : Type} (F : α → α → V3 K) (h : ∀ a b, vadd (F a b) (F b a) = ⟨0, 0, 0⟩) (l : List α) : tot (fun a => tot (F a) l) l = ⟨0, 0, 0⟩ := by
  have := tot_cancel F F h l l
  generalize tot (fun a => tot (F a) l) l = v at this
  have h1 := congrArg V3.x this
  have h2 := congrArg V3.y this
  have h3 := congrArg V3.z this
  simp only [vadd] at h1 h2 h3
  apply v3_ext <;> dsimp only <;> linarith

theorem tot_cross {α : Type} (x : V3 K) (f : α → V3 K) (l : List α) : cross x (tot f l) = tot (fun a => cross x (f a)) l := by
  induction l with
  | nil => simp [tot_nil, cross]
  | cons a l ih => rw [tot_cons, tot_cons, ← ih]; apply v3_ext <;> simp only [cross, vadd] <;> ring

theorem pull_cross (sqrt : K → K) (G : K) (s : Sink K) (x : V3 K) : cross (vsub x s.pos) (pull sqrt G s x) = ⟨0, 0, 0⟩ := by
  unfold pull
  dsimp only
  split_ifs
  · simp [cross]
  · apply v3_ext <;> simp only [cross, smul, vsub] <;> ring

/-- Specification: one term of the attraction of sinks by sinks. -/
def sinkPull (sqrt : K → K) (G eps : K) (s t : Sink K) : V3 K :=
  let r := vsub s.pos t.pos
  let d := sqrt (dot r r)
  smul (-(G * t.mass / (d * d * d + eps))) r

theorem sinkExt_eq (sqrt : K → K) (G eps : K) (sinks : List (Sink K)) (s : Sink K) : sinkExt sqrt G eps sinks s = tot (sinkPull sqrt G eps s) sinks := by
  have : ∀ (l : List (Sink K)) (acc : V3 K), l.foldl (fun acc t =>
    let rij := vsub s.pos t.pos
    let d := sqrt (dot rij rij)
    vsub acc (smul (1 / (d * d * d + eps)) (smul (G * t.mass) rij))) acc = vadd acc (tot (sinkPull sqrt G eps s) l) := by
    intro l
    induction l with
    | nil => intro acc; simp [tot_nil, vadd]
    | cons t l ih =>
      intro acc
      rw [List.foldl_cons, ih, tot_cons]
      apply v3_ext <;> simp only [sinkPull, vadd, vsub, smul] <;> ring
  unfold sinkExt
  rw [this]
  simp [vadd]

theorem sinkPull_anti (sqrt : K → K) (G eps : K) (s t : Sink K) : vadd (smul s.mass (sinkPull sqrt G eps s t)) (smul t.mass (sinkPull sqrt G eps t s)) = ⟨0, 0, 0⟩ := by
  have e : dot (vsub t.pos s.pos) (vsub t.pos s.pos) = dot (vsub s.pos t.pos) (vsub s.pos t.pos) := by unfold dot vsub; ring
  unfold sinkPull
  dsimp only
  rw [e]
  apply v3_ext <;> simp only [vadd, vsub, smul] <;> ring

theorem sinkPull_torque (sqrt : K → K) (G eps : K) (s t : Sink K) :
    vadd (smul s.mass (cross s.pos (sinkPull sqrt G eps s t))) (smul t.mass (cross t.pos (sinkPull sqrt G eps t s))) = ⟨0, 0, 0⟩ := by
  have e : dot (vsub t.pos s.pos) (vsub t.pos s.pos) = dot (vsub s.pos t.pos) (vsub s.pos t.pos) := by unfold dot vsub; ring
  unfold sinkPull
  dsimp only
  rw [e]
  apply v3_ext <;> simp only [vadd, vsub, smul, cross] <;> ring

theorem extForces_sum (sqrt : K → K) (G eps : K) (sinks : List (Sink K)) :
    tot (fun s => smul s.mass s.accExt) (extForces sqrt G eps sinks) = ⟨0, 0, 0⟩ ∧ tot (fun s => smul s.mass (cross s.pos s.accExt)) (extForces sqrt G eps sinks) = ⟨0, 0, 0⟩ := by
  unfold extForces
  rw [tot_map, tot_map]
  dsimp only
  constructor
  · rw [← tot_anti (fun s t => smul s.mass (sinkPull sqrt G eps s t)) (sinkPull_anti sqrt G eps) sinks]
    apply tot_congr
    intro s _
    rw [sinkExt_eq, ← tot_smul]
  · rw [← tot_anti (fun s t => smul s.mass (cross s.pos (sinkPull sqrt G eps s t))) (sinkPull_torque sqrt G eps) sinks]
    apply tot_congr
    intro s _
    rw [sinkExt_eq, tot_cross, ← tot_smul]

theorem gasForces_sum (sqrt : K → K) (G pm : K) (ps : List (Ptcl K)) (sinks : List (Sink K)) :
    vadd (tot (fun p => smul pm p.ext) (ps.map (withExt sqrt G sinks))) (tot (fun s => smul s.mass s.accSph) (sinks.map (withAcc sqrt G pm ps))) = ⟨0, 0, 0⟩ ∧
    vadd (tot (fun p => smul pm (cross p.x p.ext)) (ps.map (withExt sqrt G sinks))) (tot (fun s => smul s.mass (cross s.pos s.accSph)) (sinks.map (withAcc sqrt G pm ps))) = ⟨0, 0, 0⟩ := by
  simp only [tot_map, withExt, withAcc, tot_cross]
  simp only [← tot_smul]
  constructor
  · apply tot_cancel
    intro p s
    apply v3_ext <;> simp only [vadd, smul] <;> ring
  · apply tot_cancel
    intro p s
    have h := pull_cross sqrt G s p.x
    generalize pull sqrt G s p.x = f at h
    have h1 := congrArg V3.x h
    have h2 := congrArg V3.y h
    have h3 := congrArg V3.z h
    simp only [cross, vsub] at h1 h2 h3
    apply v3_ext <;> simp only [vadd, smul, cross]
    · linear_combination (-(pm * s.mass)) * h1
    · linear_combination (-(pm * s.mass)) * h2
    · linear_combination (-(pm * s.mass)) * h3

end
end Shamrock.Sph
