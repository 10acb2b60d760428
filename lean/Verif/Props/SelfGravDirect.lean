import Verif.Props.SelfGrav
import Verif.Proof.SGDirect
/-!
C71: the self gravity of a patch by the direct sum, on the host and by the tiled kernel.
-/
namespace Shamrock.SelfGrav

open Shamrock Shamrock.Fmm

noncomputable section

/-- Specification: the field at particle `i` of the other particles, of unit masses, softened. -/
def directSum (P : Nat → V3 ℝ) (n : Nat) (eps : ℝ) (i : Nat) (c : Fin 3) : ℝ :=
  (((List.range n).filter fun j => decide (j ≠ i)).map fun j => plummer eps (P i) (P j) c).sum

section
variable {pos : List (V3 ℝ)} {n : Nat} {P : Nat → V3 ℝ} {G m eps eps2 : ℝ}

theorem v3_ix_ext {a b : V3 ℝ} (h : ∀ c, Fmm.ix a c = Fmm.ix b c) : a = b := by
  obtain ⟨x, y, z⟩ := a
  obtain ⟨x', y', z'⟩ := b
  have h0 : x = x' := h 0
  have h1 : y = y' := h 1
  have h2 : z = z' := h 2
  rw [h0, h1, h2]

theorem refForce_eq (hpos : ∀ i < n, pos[i]? = some (P i)) {i : Nat} (hi : i < n) :
    refForce pos n m eps2 i = some (forceUpTo P n m eps2 i n) := by
  unfold refForce
  simp only [hpos i hi, Option.bind_eq_bind, Option.bind_some]
  have : ∀ k ≤ n, (List.range k).foldlM (fun f j => if i = j then some f else (pos[j]?).map fun xj => addTerm eps2 m (P i) xj f)
      (some (⟨0, 0, 0⟩ : V3 ℝ)) = some (forceUpTo P n m eps2 i k) := by
    intro k
    induction k with
    | zero => intro _; rfl
    | succ k ih =>
      intro hk
      rw [List.range_succ, List.foldlM_append, ih (by omega), forceUpTo_succ]
      simp only [Option.bind_eq_bind, Option.bind_some, List.foldlM_cons, List.foldlM_nil]
      by_cases h : i = k
      · rw [if_pos h, if_pos h]; rfl
      · rw [if_neg h, if_neg h, hpos k (by omega)]
        unfold tileVal myPos
        rw [if_pos (by omega), if_pos hi]
        rfl
  exact this n le_rfl

theorem refRun (hpos : ∀ i < n, pos[i]? = some (P i)) (acc : List (Option (V3 ℝ))) (hacc : acc.length = n) :
    ∃ acc', sgDirectRef pos n G m eps acc = some acc' ∧ acc'.length = n ∧
      ∀ i < n, acc'[i]? = some (addForce G (acc[i]?.getD none) (forceUpTo P n m (eps * eps) i n)) := by
  obtain ⟨acc', h1, h2, h3, _⟩ := foldlM_upd (fun i : Nat => i) (fun i a => addForce G a (forceUpTo P n m (eps * eps) i n)) (List.range n) acc
    (by rw [List.map_id']; exact List.nodup_range) (fun i hi => by rw [hacc]; exact List.mem_range.1 hi)
  refine ⟨acc', ?_, h2.trans hacc, ?_⟩
  · rw [← h1]
    unfold sgDirectRef
    apply foldlM_congr
    intro i hi b
    simp only [refForce_eq hpos (List.mem_range.1 hi), Option.bind_eq_bind, Option.bind_some]
  · intro i hi
    rw [h3 i (List.mem_range.2 hi), List.getElem?_eq_getElem (by omega)]
    rfl

/-- With a softening, the forces are finite sums. -/
theorem forceUpTo_sum (he : eps ≠ 0) {i : Nat} (hi : i < n) : ∀ k ≤ n, ∃ f, forceUpTo P n m (eps * eps) i k = some f ∧
    ∀ c, Fmm.ix f c = m * (((List.range k).filter fun j => decide (j ≠ i)).map fun j => plummer eps (P i) (P j) c).sum := by
  intro k
  induction k with
  | zero =>
    intro _
    refine ⟨⟨0, 0, 0⟩, rfl, fun c => ?_⟩
    have h0 : Fmm.ix (⟨0, 0, 0⟩ : V3 ℝ) c = 0 := by fin_cases c <;> rfl
    rw [h0]; simp
  | succ k ih =>
    intro hk
    obtain ⟨f, h1, h2⟩ := ih (by omega)
    rw [forceUpTo_succ]
    by_cases h : i = k
    · refine ⟨f, by rw [if_pos h, h1], fun c => ?_⟩
      rw [h2 c, List.range_succ, List.filter_append]
      simp [h]
    · rw [if_neg h, h1]
      unfold tileVal myPos
      rw [if_pos (by omega), if_pos hi]
      have hne : (P k - P i).x * (P k - P i).x + (P k - P i).y * (P k - P i).y + (P k - P i).z * (P k - P i).z + eps * eps ≠ 0 := by
        have g1 := mul_self_nonneg (P k - P i).x
        have g2 := mul_self_nonneg (P k - P i).y
        have g3 := mul_self_nonneg (P k - P i).z
        have g4 := mul_self_pos.2 he
        linarith
      unfold addTerm
      simp only [Option.bind_some]
      refine ⟨_, if_neg hne, fun c => ?_⟩
      have hdec : decide (k ≠ i) = true := decide_eq_true (fun hc => h hc.symm)
      rw [ix_axpy, h2 c, List.range_succ, List.filter_append, List.map_append, List.sum_append, List.filter_cons, if_pos hdec, mul_add]
      congr 1
      have hd := directTerm_eq (G := 1) (m := m) (eps := eps) (P i) (P k) c
      rw [one_mul] at hd
      have hs : Fmm.ix (P k - P i) c = Fmm.ix (P k) c - Fmm.ix (P i) c := by fin_cases c <;> rfl
      rw [List.filter_nil, List.map_cons, List.map_nil, List.sum_cons, List.sum_nil, add_zero, ← hd, hs]
      unfold directTerm
      rw [one_mul]
      have e : ((P k - P i).x = (P k).x - (P i).x) ∧ ((P k - P i).y = (P k).y - (P i).y) ∧ ((P k - P i).z = (P k).z - (P i).z) := ⟨rfl, rfl, rfl⟩
      rw [e.1, e.2.1, e.2.2]
      ring

/-- The square of the distance that the code computes for the padding of the last tile, which is at the origin. -/
def padDist (P : Nat → V3 ℝ) (eps2 : ℝ) (i : Nat) : ℝ :=
  (⟨0, 0, 0⟩ - P i : V3 ℝ).x * (⟨0, 0, 0⟩ - P i : V3 ℝ).x + (⟨0, 0, 0⟩ - P i : V3 ℝ).y * (⟨0, 0, 0⟩ - P i : V3 ℝ).y +
    (⟨0, 0, 0⟩ - P i : V3 ℝ).z * (⟨0, 0, 0⟩ - P i : V3 ℝ).z + eps2

theorem padDist_zero (i : Nat) : padDist P (eps * eps) i = 0 ↔ eps = 0 ∧ P i = ⟨0, 0, 0⟩ := by
  have e : padDist P (eps * eps) i = (0 - (P i).x) * (0 - (P i).x) + (0 - (P i).y) * (0 - (P i).y) + (0 - (P i).z) * (0 - (P i).z) + eps * eps := rfl
  rw [e]
  constructor
  · intro h
    have g1 := mul_self_nonneg (0 - (P i).x)
    have g2 := mul_self_nonneg (0 - (P i).y)
    have g3 := mul_self_nonneg (0 - (P i).z)
    have g4 := mul_self_nonneg eps
    have f1 := mul_self_eq_zero.1 (show (0 - (P i).x) * (0 - (P i).x) = 0 by linarith)
    have f2 := mul_self_eq_zero.1 (show (0 - (P i).y) * (0 - (P i).y) = 0 by linarith)
    have f3 := mul_self_eq_zero.1 (show (0 - (P i).z) * (0 - (P i).z) = 0 by linarith)
    have f4 := mul_self_eq_zero.1 (show eps * eps = 0 by linarith)
    refine ⟨f4, ?_⟩
    calc P i = ⟨(P i).x, (P i).y, (P i).z⟩ := rfl
      _ = ⟨0, 0, 0⟩ := by rw [show (P i).x = 0 by linarith, show (P i).y = 0 by linarith, show (P i).z = 0 by linarith]
  · rintro ⟨h1, h2⟩
    rw [h1, h2]; norm_num

theorem forceUpTo_pad {i : Nat} (hi : i < n) (h : padDist P eps2 i ≠ 0) : ∀ d, forceUpTo P n m eps2 i (n + d) = forceUpTo P n m eps2 i n := by
  intro d
  induction d with
  | zero => rfl
  | succ d ih =>
    rw [← Nat.add_assoc, forceUpTo_succ, if_neg (by omega), ih]
    unfold tileVal myPos
    rw [if_neg (by omega), if_pos hi]
    unfold addTerm
    cases forceUpTo P n m eps2 i n with
    | none => rfl
    | some f =>
      simp only [Option.bind_some]
      refine (if_neg h).trans ?_
      congr 1
      apply v3_ix_ext
      intro c
      rw [ix_axpy]
      ring

theorem forceUpTo_nan {i : Nat} (hi : i < n) (h : padDist P eps2 i = 0) (d : Nat) : forceUpTo P n m eps2 i (n + d + 1) = none := by
  rw [forceUpTo_succ, if_neg (by omega)]
  unfold tileVal myPos
  rw [if_neg (by omega), if_pos hi]
  unfold addTerm
  cases forceUpTo P n m eps2 i (n + d) with
  | none => rfl
  | some f => simp only [Option.bind_some]; exact if_pos h

/-! ### The theorems -/

/-- C71 (reference). With a softening, the acceleration of each particle grows by `G m` times the softened field of the others. -/
theorem C71_reference (hpos : ∀ i < n, pos[i]? = some (P i)) (he : eps ≠ 0) (acc : List (Option (V3 ℝ))) (hacc : acc.length = n) :
    ∃ acc', sgDirectRef pos n G m eps acc = some acc' ∧ acc'.length = n ∧ ∀ i < n, ∀ a, acc[i]? = some (some a) →
      ∃ a', acc'[i]? = some (some a') ∧ ∀ c, Fmm.ix a' c = Fmm.ix a c + G * m * directSum P n eps i c := by
  obtain ⟨acc', h1, h2, h3⟩ := refRun (G := G) (m := m) (eps := eps) hpos acc hacc
  refine ⟨acc', h1, h2, ?_⟩
  intro i hi a ha
  obtain ⟨f, q1, q2⟩ := forceUpTo_sum (P := P) (m := m) he hi n le_rfl
  refine ⟨axpy a G f, ?_, ?_⟩
  · rw [h3 i hi, ha, q1]; rfl
  · intro c
    rw [ix_axpy, q2 c]
    unfold directSum
    ring

/-- C71 (kernel: safety). In every execution — every interleaving of the statements of the work items, with the barriers of the groups
only, whatever the scratch memory contains at the start — no access is out of bounds. -/
theorem C71_device_safe (hpos : ∀ i < n, pos[i]? = some (P i)) (hn : n + 31 < 2 ^ 32) (scratch : List (V3 ℝ × ℝ))
    (hs : scratch.length = 32 * groupCount n) (acc : List (Option (V3 ℝ))) (hacc : acc.length = n) (sched : List Nat)
    (hsch : ∀ g ∈ sched, g < 32 * groupCount n) : ∃ s, dRun pos n G m eps sched (dStart n scratch acc) = some s := by
  have hN : groupCount n = (n + 31) / 32 := by unfold groupCount; rw [Nat.mod_eq_of_lt hn]
  obtain ⟨s, h1, _⟩ := dRun_ok (G := G) (m := m) (eps2 := eps * eps) hpos hN sched hsch _ (dStart_ok _ hN rfl scratch hs acc hacc)
  exact ⟨s, h1⟩

/-- C71 (kernel: no deadlock). Every execution can be continued until all the work items are done. -/
theorem C71_no_deadlock (hpos : ∀ i < n, pos[i]? = some (P i)) (hn : n + 31 < 2 ^ 32) (scratch : List (V3 ℝ × ℝ))
    (hs : scratch.length = 32 * groupCount n) (acc : List (Option (V3 ℝ))) (hacc : acc.length = n) (sched : List Nat)
    (hsch : ∀ g ∈ sched, g < 32 * groupCount n) : ∃ (more : List Nat) (s : DirState), (∀ g ∈ more, g < 32 * groupCount n) ∧
      dRun pos n G m eps (sched ++ more) (dStart n scratch acc) = some s ∧ ∀ it ∈ s.items, it.done n := by
  have hN : groupCount n = (n + 31) / 32 := by unfold groupCount; rw [Nat.mod_eq_of_lt hn]
  obtain ⟨s, h1, h2⟩ := dRun_ok (G := G) (m := m) (eps2 := eps * eps) hpos hN sched hsch _ (dStart_ok _ hN rfl scratch hs acc hacc)
  obtain ⟨more, s', h3, h4, _, h5⟩ := finish_ok hpos hN _ s le_rfl h2
  refine ⟨more, s', h3, ?_, h5⟩
  unfold dRun
  rw [List.foldlM_append, h1]
  exact h4

/-- What an execution in which all work items are done has written. -/
theorem done_acc (hpos : ∀ i < n, pos[i]? = some (P i)) (hn : n + 31 < 2 ^ 32) (scratch : List (V3 ℝ × ℝ))
    (hs : scratch.length = 32 * groupCount n) (acc : List (Option (V3 ℝ))) (hacc : acc.length = n) (sched : List Nat)
    (hsch : ∀ g ∈ sched, g < 32 * groupCount n) {s : DirState} (hrun : dRun pos n G m eps sched (dStart n scratch acc) = some s)
    (hdone : ∀ it ∈ s.items, it.done n) : s.acc.length = n ∧
      ∀ i < n, s.acc[i]? = some (addForce G (acc[i]?.getD none) (forceUpTo P n m (eps * eps) i (32 * ((n + 31) / 32)))) := by
  have hN : groupCount n = (n + 31) / 32 := by unfold groupCount; rw [Nat.mod_eq_of_lt hn]
  obtain ⟨s', h1, h2⟩ := dRun_ok (G := G) (m := m) (eps2 := eps * eps) hpos hN sched hsch _ (dStart_ok _ hN rfl scratch hs acc hacc)
  have : s' = s := by
    have hrun' : sched.foldlM (dStep pos n G m (eps * eps)) (dStart n scratch acc) = some s := hrun
    rw [h1, Option.some.injEq] at hrun'
    exact hrun'
  subst this
  refine ⟨h2.al, ?_⟩
  intro i hi
  have hil : i < s'.items.length := by rw [h2.il, hN]; omega
  have hit := List.getElem?_eq_getElem hil
  have hd : (s'.items[i]).pc = 35 * groupCount n + 1 := hdone _ (List.getElem_mem hil)
  rw [h2.acc i _ hi hit, if_pos hd, hN]

/-- C71 (kernel = reference). When all the work items are done, the accelerations are those of the reference mode, for every execution;
with a softening, or if no particle is at the origin, or if the number of particles is a multiple of the size of the groups. -/
theorem C71_device (hpos : ∀ i < n, pos[i]? = some (P i)) (hn : n + 31 < 2 ^ 32) (scratch : List (V3 ℝ × ℝ))
    (hs : scratch.length = 32 * groupCount n) (acc : List (Option (V3 ℝ))) (hacc : acc.length = n) (sched : List Nat)
    (hsch : ∀ g ∈ sched, g < 32 * groupCount n) {s : DirState} (hrun : dRun pos n G m eps sched (dStart n scratch acc) = some s)
    (hdone : ∀ it ∈ s.items, it.done n) (hpad : eps ≠ 0 ∨ n % 32 = 0 ∨ ∀ i < n, P i ≠ ⟨0, 0, 0⟩) :
    sgDirectRef pos n G m eps acc = some s.acc := by
  obtain ⟨h1, h2⟩ := done_acc hpos hn scratch hs acc hacc sched hsch hrun hdone
  obtain ⟨acc', h3, h4, h5⟩ := refRun (G := G) (m := m) (eps := eps) hpos acc hacc
  rw [h3]
  congr 1
  apply List.ext_getElem?
  intro i
  by_cases hi : i < n
  · rw [h5 i hi, h2 i hi]
    congr 2
    obtain ⟨d, hd⟩ : ∃ d, 32 * ((n + 31) / 32) = n + d := ⟨32 * ((n + 31) / 32) - n, by omega⟩
    rw [hd]
    rcases hpad with h | h | h
    · rw [forceUpTo_pad hi (fun hz => h ((padDist_zero i).1 hz).1)]
    · rw [show d = 0 by omega]
      rfl
    · rw [forceUpTo_pad hi (fun hz => h i hi ((padDist_zero i).1 hz).2)]
  · rw [List.getElem?_eq_none (by omega), List.getElem?_eq_none (by omega)]

/-- Violation without softening: the padding of the last tile, at the origin, makes the acceleration of a particle at the origin NaN in
every execution of the kernel, whatever the other particles, when the number of particles is not a multiple of 32. -/
theorem C71_padding_defect (hpos : ∀ i < n, pos[i]? = some (P i)) (hn : n + 31 < 2 ^ 32) (scratch : List (V3 ℝ × ℝ))
    (hs : scratch.length = 32 * groupCount n) (acc : List (Option (V3 ℝ))) (hacc : acc.length = n) (sched : List Nat)
    (hsch : ∀ g ∈ sched, g < 32 * groupCount n) {s : DirState} (hrun : dRun pos n G m 0 sched (dStart n scratch acc) = some s)
    (hdone : ∀ it ∈ s.items, it.done n) (hmod : n % 32 ≠ 0) {i : Nat} (hi : i < n) (hzero : P i = ⟨0, 0, 0⟩) :
    s.acc[i]? = some none := by
  obtain ⟨_, h2⟩ := done_acc hpos hn scratch hs acc hacc sched hsch hrun hdone
  obtain ⟨d, hd⟩ : ∃ d, 32 * ((n + 31) / 32) = n + d + 1 := ⟨32 * ((n + 31) / 32) - n - 1, by omega⟩
  rw [h2 i hi, hd, forceUpTo_nan hi ((padDist_zero i).2 ⟨rfl, hzero⟩)]
  cases acc[i]?.getD none <;> rfl

end

/-- The reference mode gives a finite result in this case: one particle, at the origin. -/
example : sgDirectRef [(⟨0, 0, 0⟩ : V3 ℝ)] 1 1 1 0 [some ⟨1, 2, 3⟩] = some [some ⟨1, 2, 3⟩] := by
  have h : addForce 1 (some (⟨1, 2, 3⟩ : V3 ℝ)) (some ⟨0, 0, 0⟩) = some ⟨1, 2, 3⟩ := by
    show some (axpy (⟨1, 2, 3⟩ : V3 ℝ) 1 ⟨0, 0, 0⟩) = _
    unfold axpy
    norm_num
  show some [addForce 1 (some (⟨1, 2, 3⟩ : V3 ℝ)) (some ⟨0, 0, 0⟩)] = _
  rw [h]

/-- A complete execution exists, here for 33 particles in two groups with some first statements of the second group executed before the
others. -/
example : ∃ (sched : List Nat) (s : DirState), dRun (List.replicate 33 (⟨1, 2, 3⟩ : V3 ℝ)) 33 1 2 (1 / 10) ([40, 63, 40, 1] ++ sched)
    (dStart 33 (List.replicate 64 (⟨7, 7, 7⟩, 7)) (List.replicate 33 (some ⟨0, 0, 0⟩))) = some s ∧ (∀ it ∈ s.items, it.done 33) ∧
    sgDirectRef (List.replicate 33 (⟨1, 2, 3⟩ : V3 ℝ)) 33 1 2 (1 / 10) (List.replicate 33 (some ⟨0, 0, 0⟩)) = some s.acc := by
  have hpos : ∀ i < 33, (List.replicate 33 (⟨1, 2, 3⟩ : V3 ℝ))[i]? = some ((fun _ => ⟨1, 2, 3⟩) i) := by
    intro i hi
    rw [List.getElem?_replicate, if_pos hi]
  have hgc : groupCount 33 = 2 := rfl
  obtain ⟨more, s, h1, h2, h3⟩ := C71_no_deadlock (G := 1) (m := 2) (eps := 1 / 10) hpos (by norm_num) (List.replicate 64 (⟨7, 7, 7⟩, 7))
    rfl (List.replicate 33 (some ⟨0, 0, 0⟩)) rfl [40, 63, 40, 1] (by rw [hgc]; decide)
  refine ⟨more, s, h2, h3, ?_⟩
  refine C71_device hpos (by norm_num) _ (by rfl) _ (by rfl) _ ?_ h2 h3 (Or.inl (by norm_num))
  intro g hg
  rcases List.mem_append.1 hg with h | h
  · rw [hgc]
    simp only [List.mem_cons, List.not_mem_nil, or_false] at h
    omega
  · exact h1 g h

section
variable {w : Nat} {A : GridArith ℝ} {C : MCode w} {env : BVHEnv ℝ} {big small : ℝ} {pos : List (V3 ℝ)} {P : Nat → V3 ℝ}
  {cnt : BitVec 32} {lo hi : V3 ℝ} {t : BVH ℝ}

/-- C71 (agreement of the solvers). With the opening angle 0, the fast multipole solver and the direct sum compute the same accelerations. -/
theorem C71_matches_fmm (k : Fin 5) (H : BVHIn A C env big small pos pos P P cnt lo hi) (level : Nat)
    (ht : rebuildFromPositions A C env big small pos cnt lo hi level = .ok t) (hw : w ≤ 64) (low : Bool) (ref : Inter)
    (href : dttReference low (macStd 0) t = some ref) (o : DTTOrdered)
    (hM : GroupedBy (2 * t.nodes.length + 1) ref.1 o.m2l o.offM2l) (hP : GroupedBy (2 * t.nodes.length + 1) ref.2 o.p2p o.offP2p)
    (sortRange : Nat → Nat → List (Nat × Nat) → Option (List (Nat × Nat))) (hsr : SortsRanges pair2Lt sortRange)
    (genv : SGEnv (fmmOps k)) (hg : SGRun w t cnt.toNat genv) (G m eps : ℝ) (heps : eps ≠ 0) (acc : List (V3 ℝ)) (hacc : acc.length = cnt.toNat) :
    ∃ acc', sgsfmm (fmmOps k) sortRange genv t o pos cnt.toNat G m eps acc = some acc' ∧
      sgDirectRef pos cnt.toNat G m eps (acc.map some) = some (acc'.map some) := by
  obtain ⟨acc', h1, h2, h3⟩ := C69_theta_zero k H level ht hw low ref href o hM hP sortRange hsr genv hg G m eps heps acc hacc
  obtain ⟨acc2, q1, q2, q3⟩ := C71_reference (G := G) (m := m) H.lower heps (acc.map some) (by rw [List.length_map]; exact hacc)
  refine ⟨acc', h1, ?_⟩
  rw [q1]
  congr 1
  apply List.ext_getElem?
  intro i
  by_cases hi : i < cnt.toNat
  · have ha : acc[i]? = some (acc[i]'(by omega)) := List.getElem?_eq_getElem (by omega)
    obtain ⟨a1, e1, e2⟩ := h3 i hi _ ha
    obtain ⟨a2, e3, e4⟩ := q3 i hi _ (by rw [List.getElem?_map, ha]; rfl)
    rw [e3, List.getElem?_map, e1]
    show some (some a2) = some (some a1)
    congr 2
    apply v3_ix_ext
    intro c
    rw [e2 c, e4 c]
    congr 2
    unfold directSum
    have hself : plummer eps (P i) (P i) c = 0 := by
      unfold plummer
      rw [sub_self, zero_div]
    generalize List.range cnt.toNat = L
    induction L with
    | nil => rfl
    | cons j L ih =>
      by_cases hj : j = i
      · rw [List.filter_cons, if_neg (by simp [hj]), ih, List.map_cons, List.sum_cons, hj, hself, zero_add]
      · rw [List.filter_cons, if_pos (by simp [hj]), List.map_cons, List.sum_cons, ih, List.map_cons, List.sum_cons]
  · rw [List.getElem?_eq_none (by omega), List.getElem?_eq_none (by rw [List.length_map]; omega)]

end

end

end Shamrock.SelfGrav
